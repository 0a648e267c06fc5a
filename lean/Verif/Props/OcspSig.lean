import Verif.Model.OcspSig
import Verif.Props.Ocsp
/-
C146: only a certificate authority, or whom it has appointed for that, can vouch for its certificates.

This is not so. The package that checks OCSP answers accepts the key of any certificate that the issuer has
signed. Hence who has a certificate can sign an answer about it, also after it has been revoked; and the proxy
takes answers from its clients. The command line client moreover lets the server say who the issuer is.
-/
namespace Verif.OcspSig

open Ocsp (Verdict State Cache Status)

namespace Spec

/-- RFC 6960, 4.2.2.2: answers are signed with the key of the issuer, or with the key of a certificate that the
issuer has signed and that says that it is for signing OCSP answers. `Issued` tells which certificates there
are. -/
def Appointed (Issued : Crt → Prop) (issuer : Crt) (k : Key) : Prop :=
  k = issuer.key ∨ ∃ d, Issued d ∧ d.signer = issuer.key ∧ d.ocspSigning = true ∧ d.key = k

/-- Who has one of the other certificates of an issuer does not sign OCSP answers with its key. -/
def Decent (Issued : Crt → Prop) (issuer : Crt) (a : Answer) : Prop :=
  ∀ d, Issued d → d.signer = issuer.key → d.key = a.signedBy → d.ocspSigning = true

/-- The certificates in an answer are real. -/
def Real (Issued : Crt → Prop) (a : Answer) : Prop := ∀ d ∈ a.embedded, Issued d

/-- An answer that the holder of a certificate makes about it. -/
def forged (leaf : Crt) (next : Nat) : Answer :=
  { entries := [⟨leaf.serial, .good, next, false⟩], signedBy := leaf.key, embedded := [leaf] }

end Spec

/-- What is known of an answer that was taken. -/
theorem parse_spec {a : Answer} {cert issuer : Option Crt} {r : Ocsp.Resp} (h : parse a cert issuer = some r) :
    a.ok = true ∧ r.signer = a.signedBy ∧ signatureOK issuer a = true ∧
    ∃ e ∈ a.entries, r.serial = e.serial ∧ r.status = e.status ∧ r.next = e.next ∧ e.critical = false ∧
      (∀ c, cert = some c → e.serial = c.serial) ∧ (cert = none → a.entries = [e]) := by
  unfold parse at h
  split at h
  · cases h
  · rename_i hok
    split at h
    · cases h
    · rename_i e he
      split at h
      · cases h
      · rename_i hs
        split at h
        · cases h
        · rename_i hc
          cases h
          refine ⟨by simpa using hok, rfl, by simpa using hs, e, ?_, rfl, rfl, rfl, by simpa using hc, ?_, ?_⟩
          · unfold pick at he
            split at he
            · exact List.mem_of_find?_eq_some he
            · split at he
              · rename_i hl; cases he; rw [hl]; exact List.mem_cons_self
              · cases he
          · rintro c rfl
            unfold pick at he
            have := List.find?_some he
            simpa using this
          · rintro rfl
            unfold pick at he
            dsimp only at he
            split at he
            · rename_i hl; cases he; exact hl
            · cases he

theorem signature_spec {i : Crt} {a : Answer} (h : signatureOK (some i) a = true) :
    a.signedBy = i.key ∨ ∃ d ∈ a.embedded, d.signer = i.key ∧ d.key = a.signedBy := by
  unfold signatureOK at h
  split at h
  · rename_i d l he
    simp only [Bool.and_eq_true, decide_eq_true_eq] at h
    exact .inr ⟨d, by simp [he], h.2, h.1.symm⟩
  · exact .inl (by simpa using h)

/-- C146 (partial). An answer about a certificate that is taken for an issuer comes from one whom this issuer has
appointed, and it is about the serial number in question. Missing: that this holds without trusting everyone who has
a certificate of this issuer. -/
theorem answer_signed_partial (Issued : Crt → Prop) (a : Answer) (cert : Option Crt) (i : Crt) (r : Ocsp.Resp)
    (h : parse a cert (some i) = some r) (hr : Spec.Real Issued a) (hd : Spec.Decent Issued i a) :
    Spec.Appointed Issued i r.signer ∧ (∀ c, cert = some c → r.serial = c.serial) ∧
      ∃ e ∈ a.entries, r.serial = e.serial ∧ r.status = e.status ∧ r.next = e.next := by
  obtain ⟨-, h1, h2, e, he, h3, h4, h5, -, h6, -⟩ := parse_spec h
  refine ⟨?_, fun c hc => h3.trans (h6 c hc), e, he, h3, h4, h5⟩
  rw [h1]
  rcases signature_spec h2 with h2 | ⟨d, hdm, hs, hk⟩
  · exact .inl h2
  · exact .inr ⟨d, hr d hdm, hs, hd d (hr d hdm) hs hk, hk⟩

/-- C146 (the proxy, partial). All that a verification relies on and that is new, stapled or fetched, comes from
those whom the issuers have appointed, if nobody else with a certificate of theirs signs answers. -/
theorem relied_signed_partial (Issued : Crt → Prop) (w : Outside) (s : State) (chains : List (List Crt)) (hs : s.log = [])
    (hr : ∀ a, w.staple = some a ∨ (∃ n c srv, w.net n c srv = some a) → Spec.Real Issued a ∧
      ∀ i, Spec.Decent Issued (w.crt i) a) :
    ∀ e ∈ (verify w s chains).2.log,
      (∀ c i r t, e = .stapled c i r t → Spec.Appointed Issued (w.crt i.raw) r.signer) ∧
      (∀ c i srv r t, e = .fetched c i srv r t → Spec.Appointed Issued (w.crt i.raw) r.signer) := by
  intro e he
  have hw := Ocsp.relied_weak_partial (envOf w) s (chains.map fun ch => List.map view ch) w.staple.isSome
    (by rw [hs]; exact fun _ h => (nomatch h)) e he
  refine ⟨?_, ?_⟩
  · rintro c i r t rfl
    obtain ⟨-, h2⟩ := hw
    obtain ⟨a, ha, hp⟩ := Option.bind_eq_some_iff.mp h2
    obtain ⟨h3, h4⟩ := hr a (.inl ha)
    exact (answer_signed_partial Issued a _ _ r hp h3 (h4 _)).1
  · rintro c i srv r t rfl
    obtain ⟨-, n, h2⟩ := hw
    unfold envOf at h2
    dsimp only at h2
    split at h2
    · cases h2
    · rename_i a ha
      split at h2
      · cases h2
      · rename_i q hq
        cases h2
        obtain ⟨h3, h4⟩ := hr a (.inr ⟨_, _, _, ha⟩)
        exact (answer_signed_partial Issued a _ _ r hq h3 (h4 _)).1

/-! ## Forged answers -/

theorem forged_parse (leaf issuer : Crt) (next : Nat) (hs : leaf.signer = issuer.key) :
    parse (Spec.forged leaf next) (some leaf) (some issuer) = some ⟨leaf.serial, .good, next, leaf.key⟩ := by
  simp [parse, Spec.forged, pick, signatureOK, hs]

/-- A chain whose first certificate is known to be good and whose others name no OCSP servers. -/
theorem cached_accept (env : Ocsp.Env) (s : State) (leaf : Ocsp.Cert) (rest : List Ocsp.Cert) (r : Ocsp.Resp)
    (hsrv : leaf.servers ≠ []) (hrest : ∀ c ∈ rest, c.servers = [])
    (hc : (env.other s.tick s.cache).get leaf.raw = some (some r)) (hg : r.status = .good) (hn : env.now s.tick < r.next) :
    (Ocsp.checkChains env s [leaf :: rest] none).1 = .accept ∧
    (Ocsp.checkChains env s [leaf :: rest] none).2.cache = env.other s.tick s.cache := by
  have skip : ∀ (l : List Ocsp.Cert) (t : State) (g : Bool), (∀ c ∈ l, c.servers = []) →
      Ocsp.checkChain env t l g = (.good g, t) := by
    intro l
    induction l with
    | nil => intro t g _; rfl
    | cons c l ih =>
      intro t g h
      rw [Ocsp.checkChain, if_pos (h c (by simp)), ih t g fun x hx => h x (by simp [hx])]
  have hresp : Ocsp.response env s leaf (Ocsp.issuerOf leaf rest) 0 =
      (.resp r, { cache := env.other s.tick s.cache, tick := s.tick + 1,
                  log := .cached leaf (Ocsp.issuerOf leaf rest) r (env.now s.tick) :: s.log }) := by
    unfold Ocsp.response
    dsimp only
    rw [hc]
    dsimp only
    rw [if_pos (by omega)]
  have hch : Ocsp.checkChain env s (leaf :: rest) false =
      (.good true, { cache := env.other s.tick s.cache, tick := s.tick + 1,
                     log := .cached leaf (Ocsp.issuerOf leaf rest) r (env.now s.tick) :: s.log }) := by
    rw [Ocsp.checkChain, if_neg hsrv, hresp]
    dsimp only
    rw [hg]
    dsimp only
    exact skip rest _ true hrest
  rw [Ocsp.checkChains, hch]
  exact ⟨rfl, rfl⟩

/-- C146 (violated, the proxy). A client whose certificate names OCSP servers, and has been revoked by an issuer that
does not tell the proxy so before the handshake, staples an answer that it has signed itself. Whatever the OCSP servers
would say, it is admitted, and the answer is kept. -/
theorem staple_forged_violated (w : Outside) (s : State) (leaf issuer : Crt) (rest : List Crt) (next : Nat)
    (hst : w.staple = some (Spec.forged leaf next)) (h1 : w.crt leaf.raw = leaf) (h2 : w.crt issuer.raw = issuer)
    (hs : leaf.signer = issuer.key) (hsrv : leaf.servers ≠ []) (hrest : ∀ c ∈ issuer :: rest, c.servers = [])
    (hother : ∀ i c, w.other i c = c) (hnow : ∀ i, w.now i < next) (hc : s.cache.get leaf.raw = none) :
    (verify w s [leaf :: issuer :: rest]).1 = .accept ∧
    (verify w s [leaf :: issuer :: rest]).2.cache.get leaf.raw = some (some ⟨leaf.serial, .good, next, leaf.key⟩) := by
  have hstaple : (envOf w).staple (view leaf) (view issuer) = some ⟨leaf.serial, .good, next, leaf.key⟩ := by
    show w.staple.bind _ = _
    rw [hst]
    show parse _ (some (w.crt leaf.raw)) (some (w.crt issuer.raw)) = _
    rw [h1, h2, forged_parse leaf issuer next hs]
  have ho : ∀ i c, (envOf w).other i c = c := hother
  unfold verify Ocsp.verifyChains
  rw [hst]
  dsimp only [Option.isSome, List.map]
  rw [if_pos rfl]
  unfold Ocsp.useStaple
  dsimp only
  rw [hstaple]
  dsimp only
  rw [if_pos ⟨hnow s.tick, rfl⟩, ho, ho, show s.cache.get (view leaf).raw = none from hc]
  dsimp only
  have hget : ∀ (t : Nat) (l : List Ocsp.Event), ((envOf w).other t
      (Cache.add s.cache (view leaf).raw (some ⟨leaf.serial, .good, next, leaf.key⟩))).get (view leaf).raw =
      some (some ⟨leaf.serial, .good, next, leaf.key⟩) := by
    intro t l
    rw [ho, Ocsp.Cache.get_add, if_pos rfl]
  have := cached_accept (envOf w) ⟨Cache.add s.cache (view leaf).raw (some ⟨leaf.serial, .good, next, leaf.key⟩), s.tick + 1 + 1,
      Ocsp.Event.stapled (view leaf) (view issuer) ⟨leaf.serial, .good, next, leaf.key⟩ ((envOf w).now s.tick) :: s.log⟩
    (view leaf) ((issuer :: rest).map view) ⟨leaf.serial, .good, next, leaf.key⟩ hsrv (by
      intro c hc
      obtain ⟨x, hx, rfl⟩ := List.mem_map.mp hc
      exact hrest x hx) (hget _ []) rfl (hnow _)
  refine ⟨this.1, ?_⟩
  rw [show (view issuer :: List.map view rest) = (issuer :: rest).map view from rfl, this.2]
  exact hget _ []

/-- C146 (violated, later). Until the time that the client has chosen, it is admitted again, without stapling anything,
whatever the OCSP servers say: they are not asked. -/
theorem forged_kept_violated (w : Outside) (s : State) (leaf issuer : Crt) (rest : List Crt) (next : Nat)
    (hst : w.staple = none) (hsrv : leaf.servers ≠ []) (hrest : ∀ c ∈ issuer :: rest, c.servers = [])
    (hother : ∀ i c, w.other i c = c) (hnow : ∀ i, w.now i < next)
    (hc : s.cache.get leaf.raw = some (some ⟨leaf.serial, .good, next, leaf.key⟩)) :
    (verify w s [leaf :: issuer :: rest]).1 = .accept ∧
    (verify w s [leaf :: issuer :: rest]).2.cache.get leaf.raw = some (some ⟨leaf.serial, .good, next, leaf.key⟩) := by
  have ho : ∀ i c, (envOf w).other i c = c := hother
  have := cached_accept (envOf w) s (view leaf) ((issuer :: rest).map view) ⟨leaf.serial, .good, next, leaf.key⟩ hsrv (by
      intro c hc
      obtain ⟨x, hx, rfl⟩ := List.mem_map.mp hc
      exact hrest x hx) (by rw [ho]; exact hc) rfl (hnow _)
  unfold verify Ocsp.verifyChains
  rw [hst]
  dsimp only [Option.isSome, List.map]
  rw [if_neg (by simp)]
  refine ⟨this.1, ?_⟩
  rw [show (view issuer :: List.map view rest) = (issuer :: rest).map view from rfl, this.2, ho]
  exact hc

/-! ## The command line client -/

/-- C146 (the client, partial). With `-ocsp`, the client goes on only if the server has stapled an answer that says good
about the serial number of its certificate, that has not expired, and that comes from one whom the issuer has
appointed. Missing: that this is so although any certificate of the issuer will do; and that what the server has sent
as the second certificate is the issuer. -/
theorem client_partial (Issued : Crt → Prop) (now : Nat) (cert issuer : Crt) (rest : List Crt) (staple : Option Answer)
    (h : clientCheck true now cert (issuer :: rest) staple = none)
    (hr : ∀ a, staple = some a → Spec.Real Issued a ∧ Spec.Decent Issued issuer a) :
    ∃ a e, staple = some a ∧ e ∈ a.entries ∧ e.serial = cert.serial ∧ e.status = .good ∧ now ≤ e.next ∧
      Spec.Appointed Issued issuer a.signedBy := by
  unfold clientCheck at h
  rw [if_neg (by simp)] at h
  cases staple with
  | none => cases h
  | some a =>
    dsimp only at h
    split at h
    · cases h
    · rename_i r hp
      split at h
      · cases h
      · rename_i hn
        split at h
        · cases h
        · rename_i hg
          obtain ⟨-, q1, q2, e, he, e1, e2, e3, -, e4, -⟩ := parse_spec hp
          have := answer_signed_partial Issued a _ _ r hp (hr a rfl).1 (hr a rfl).2
          refine ⟨a, e, rfl, he, e4 cert rfl, by rw [← e2]; exact Decidable.not_not.mp hg, by rw [← e3]; omega, ?_⟩
          rw [← q1]; exact this.1

/-- C146 (the client, without the flag). Nothing is asked of servers then. -/
theorem client_optional (now : Nat) (cert : Crt) (rest : List Crt) (staple : Option Answer) :
    clientCheck false now cert rest staple = none := rfl

/-- C146 (the client, conversely). A good answer that the issuer has signed and that has not expired is accepted from a
server that sends its issuer; after it has expired, or if it says anything else, it is not. -/
theorem client_accepts (now : Nat) (cert issuer : Crt) (rest : List Crt) (e : Entry) (he : e.serial = cert.serial)
    (hc : e.critical = false) :
    clientCheck true now cert (issuer :: rest) (some { entries := [e], signedBy := issuer.key }) = none ↔
      now ≤ e.next ∧ e.status = .good := by
  have hp : parse { entries := [e], signedBy := issuer.key } (some cert) (some issuer) =
      some ⟨e.serial, e.status, e.next, issuer.key⟩ := by
    simp [parse, pick, signatureOK, he, hc]
  unfold clientCheck
  rw [if_neg (by simp)]
  dsimp only [issuerFrom]
  rw [hp]
  dsimp only
  split
  · rename_i hn
    exact ⟨fun h => (nomatch h), fun h => absurd h.1 (by omega)⟩
  · split
    · rename_i hg
      exact ⟨fun h => (nomatch h), fun h => absurd h.2 hg⟩
    · rename_i hn hg
      exact ⟨fun _ => ⟨by omega, Decidable.not_not.mp hg⟩, fun _ => rfl⟩

/-- C146 (violated, the client). A server with a certificate that has been revoked signs the answer itself. -/
theorem client_forged_violated (now next : Nat) (cert issuer : Crt) (rest : List Crt) (hs : cert.signer = issuer.key)
    (hn : now ≤ next) : clientCheck true now cert (issuer :: rest) (some (Spec.forged cert next)) = none := by
  unfold clientCheck
  rw [if_neg (by simp)]
  dsimp only [issuerFrom]
  rw [forged_parse cert issuer next hs]
  dsimp only
  rw [if_neg (by omega), if_neg (by simp)]

/-- C146 (violated, the client, again). Or it sends any certificate of its own making as the second one, and signs the
answer with the key of that. -/
theorem client_issuer_violated (now next : Nat) (cert own : Crt) (rest : List Crt) (hn : now ≤ next) :
    clientCheck true now cert (own :: rest)
      (some { entries := [⟨cert.serial, .good, next, false⟩], signedBy := own.key }) = none :=
  (client_accepts now cert own rest ⟨cert.serial, .good, next, false⟩ rfl rfl).mpr ⟨hn, rfl⟩

/-- C146 (violated, honest servers). A server whose certificate comes from a root, and that therefore sends no other,
is refused with a good answer of this root. -/
theorem client_root_violated (now next : Nat) (cert root : Crt) (hk : cert.key ≠ root.key) :
    clientCheck true now cert [] (some { entries := [⟨cert.serial, .good, next, false⟩], signedBy := root.key }) =
      some .invalid := by
  have hp : parse { entries := [⟨cert.serial, .good, next, false⟩], signedBy := root.key } (some cert) (some cert) =
      none := by
    simp [parse, pick, signatureOK, Ne.symm hk]
  unfold clientCheck
  rw [if_neg (by simp)]
  dsimp only [issuerFrom]
  rw [hp]

/-! ## Examples -/

namespace Example

def root : Crt := { raw := 1, serial := 1, key := 10, signer := 10 }
/-- Someone's certificate, which has been revoked. -/
def leaf : Crt := { raw := 2, serial := 77, key := 20, signer := 10, servers := [0] }
/-- Whom the CA has appointed. -/
def responder : Crt := { raw := 3, serial := 3, key := 30, signer := 10, ocspSigning := true }

def crt : Nat → Crt
  | 1 => root
  | 2 => leaf
  | _ => responder

/-- The OCSP server says that it is revoked. -/
def revoked : Answer := { entries := [⟨77, .revoked, 2000, false⟩], signedBy := 30, embedded := [responder] }

def honest : Outside :=
  { crt := crt, staple := none, net := fun _ _ _ => some revoked, now := fun _ => 1000, other := fun _ c => c }

def s0 : State := ⟨[], 0, []⟩

/-- Without a staple the certificate is refused; with one that it has signed itself it is admitted, and then again
without one. -/
example : (verify honest s0 [[leaf, root]]).1 = .refuse .revoked := by decide +kernel

def attack : Outside := { honest with staple := some (Spec.forged leaf 999999) }

example : (verify attack s0 [[leaf, root]]).1 = .accept := by decide +kernel

example : (verify honest (verify attack s0 [[leaf, root]]).2 [[leaf, root]]).1 = .accept := by decide +kernel

/-- Someone on the way to the OCSP server, which is asked without TLS, returns what the responder has said about
another certificate. -/
def elsewhere : Answer := { entries := [⟨78, .good, 2000, false⟩], signedBy := 30, embedded := [responder] }

/-- C146 (violated, the network). Although the answer is from whom the CA has appointed, and nothing is wrong with
it, it is not about the certificate that is admitted because of it, and that has been revoked. -/
theorem fetched_other_violated :
    Spec.Appointed (fun d => d = root ∨ d = leaf ∨ d = responder) root elsewhere.signedBy ∧
    (∀ e ∈ elsewhere.entries, e.serial ≠ leaf.serial) ∧
    (verify { honest with net := fun _ _ _ => some elsewhere } s0 [[leaf, root]]).1 = .accept :=
  ⟨.inr ⟨responder, .inr (.inr rfl), rfl, rfl, rfl⟩, by decide +kernel, by decide +kernel⟩

/-- The hypotheses of `staple_forged_violated`. -/
example : attack.staple = some (Spec.forged leaf 999999) ∧ attack.crt leaf.raw = leaf ∧ attack.crt root.raw = root ∧
    leaf.signer = root.key ∧ leaf.servers ≠ [] ∧ (∀ c ∈ [root], c.servers = []) ∧ s0.cache.get leaf.raw = none := by
  decide +kernel

/-- Those of `relied_signed_partial` hold for the honest server if these are all certificates. -/
example : Spec.Real (fun d => d = root ∨ d = leaf ∨ d = responder) revoked ∧
    ∀ i, Spec.Decent (fun d => d = root ∨ d = leaf ∨ d = responder) (crt i) revoked := by
  refine ⟨fun d hd => ?_, fun i d hd _ hk => ?_⟩
  · simp [revoked] at hd; simp [hd]
  · rcases hd with rfl | rfl | rfl
    · exact absurd hk (by decide)
    · exact absurd hk (by decide)
    · rfl

/-- They do not hold for the forged answer. -/
example : ¬ Spec.Decent (fun d => d = root ∨ d = leaf ∨ d = responder) root (Spec.forged leaf 999999) := by
  intro h
  exact absurd (h leaf (.inr (.inl rfl)) rfl rfl) (by decide)

example : clientCheck true 1000 leaf [root] (some revoked) = some .notGood := by decide +kernel
example : clientCheck true 1000 leaf [root] (some (Spec.forged leaf 2000)) = none := by decide +kernel
example : clientCheck true 1000 leaf [root] none = some .missing := by decide +kernel

end Example

end Verif.OcspSig
