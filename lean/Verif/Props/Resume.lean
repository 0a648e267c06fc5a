import Verif.Model.Resume
import Verif.Props.Dispatch
import Verif.Props.Reload
/-!
C123: resuming a TLS session gives a client nothing that a full handshake would not.
-/
namespace Verif.Resume

open Verif.Dispatch

/-! ## Specification -/

/-- In one of the TCP connections of `evs`, a client whose hello was routed to `b` presented
`crt`, and it verified against the client CAs of `b` at that moment. -/
def Spec.ShownTCP (e : Env) (evs : List Ev) (b : Nat) (crt : Cert) : Prop :=
  ∃ w now c o sni protos, Ev.tcp w now c o ∈ evs ∧ c.hello = some (sni, protos) ∧
    w.route (if sni = "" then w.defaultServerName else sni) protos = .to b ∧
    o.cert = some crt ∧ e.chains now (e.cas b) crt = true

/-- In one of the QUIC connections of `evs` a client presented `crt` and it verified against
the roots `roots` at that moment. -/
def Spec.ShownQUIC (e : Env) (evs : List Ev) (roots : List Nat) (crt : Cert) : Prop :=
  ∃ w declared now c o, Ev.quic w declared now c o ∈ evs ∧
    o.cert = some crt ∧ e.chains now roots crt = true

theorem Spec.ShownTCP.mono {e : Env} {evs : List Ev} {b : Nat} {crt : Cert} (ev : Ev)
    (h : Spec.ShownTCP e evs b crt) : Spec.ShownTCP e (evs ++ [ev]) b crt := by
  obtain ⟨w, now, c, o, sni, protos, hm, h⟩ := h
  exact ⟨w, now, c, o, sni, protos, by simp [hm], h⟩

theorem Spec.ShownQUIC.mono {e : Env} {evs : List Ev} {b : List Nat} {crt : Cert} (ev : Ev)
    (h : Spec.ShownQUIC e evs b crt) : Spec.ShownQUIC e (evs ++ [ev]) b crt := by
  obtain ⟨w, d, now, c, o, hm, h⟩ := h
  exact ⟨w, d, now, c, o, by simp [hm], h⟩

/-! ## The invariant -/

theorem handshake_cert {w : World} {be : Be} {np : List String} {quic : Bool} {c : Client}
    {p : String} {crt : Cert} (h : handshake w be np quic c = some (p, some crt)) :
    be.clientAuth ≠ none ∧ c.cert = some crt ∧ c.chainOK = true := by
  unfold handshake at h
  split at h
  · cases h
  · split at h
    · cases h
    · split at h
      · cases h
      · rename_i a ha
        split at h
        · cases h
        · rename_i crt' hc
          split at h
          · cases h
          · rename_i hch
            split at h
            · cases h
              exact ⟨by rw [ha]; simp, hc, by simpa using hch⟩
            · cases h

theorem resumed_some {e : Env} {ts : List Ticket} {now b : Nat} {key : Key} {o : Offer}
    {t : Ticket} (h : resumed e ts now b key o = some t) :
    t ∈ ts ∧ t.key = key ∧
      ∀ c, t.cert = some c → now ≤ e.notAfter c ∧ (e.recheck = true → e.chains now (e.cas b) c = true) := by
  unfold resumed at h
  split at h
  · cases h
  · split at h
    · cases h
    · rename_i t' ht
      split at h
      · rename_i hu
        cases h
        refine ⟨List.mem_of_getElem? ht, ?_, ?_⟩
        · unfold usable at hu
          simp only [Bool.and_eq_true, decide_eq_true_eq] at hu
          exact hu.1
        · intro c hc
          unfold usable at hu
          rw [hc] at hu
          simp only [Bool.and_eq_true, decide_eq_true_eq, Bool.or_eq_true, Bool.not_eq_true'] at hu
          refine ⟨hu.2.1.2, fun hr => ?_⟩
          rcases hu.2.2 with h | h
          · rw [hr] at h; cases h
          · exact h
      · cases h

/-- Where the certificate of a connection comes from. -/
theorem clientOf_cert {e : Env} {ts : List Ticket} {now b : Nat} {key : Key} {o : Offer} {crt : Cert}
    (hc : (clientOf e ts now b key o).cert = some crt)
    (hch : (clientOf e ts now b key o).chainOK = true) :
    (o.cert = some crt ∧ e.chains now (e.cas b) crt = true) ∨
    (∃ t ∈ ts, t.key = key ∧ t.cert = some crt ∧ now ≤ e.notAfter crt ∧
      (e.recheck = true → e.chains now (e.cas b) crt = true)) := by
  unfold clientOf at hc hch
  cases hr : resumed e ts now b key o with
  | some t =>
    rw [hr] at hc
    obtain ⟨hm, hk, hx⟩ := resumed_some hr
    exact Or.inr ⟨t, hm, hk, hc, hx crt hc⟩
  | none =>
    rw [hr] at hc hch
    simp only at hc hch
    rw [hc] at hch
    exact Or.inl ⟨hc, hch⟩

theorem tcpBackend_some {w : World} {c : Conn} {b : Nat} (h : tcpBackend w c = some b) :
    ∃ sni protos, c.hello = some (sni, protos) ∧
      w.route (if sni = "" then w.defaultServerName else sni) protos = .to b := by
  unfold tcpBackend at h
  split at h
  · cases h
  · rename_i sni protos hh
    split at h
    · rename_i b' hr
      cases h
      exact ⟨sni, protos, hh, hr⟩
    · cases h

theorem snoc_induction {α : Type} {P : List α → Prop} (h0 : P [])
    (hs : ∀ l a, P l → P (l ++ [a])) (l : List α) : P l := by
  have : ∀ r : List α, P r.reverse := by
    intro r
    induction r with
    | nil => exact h0
    | cons a r ih => rw [List.reverse_cons]; exact hs _ _ ih
  have h := this l.reverse
  rwa [List.reverse_reverse] at h

/-- Every certificate stored in a ticket sealed with a backend's own key was verified in a
connection to that backend; one sealed with the QUIC key was verified for some backend. -/
theorem tickets_shown (e : Env) (evs : List Ev) :
    ∀ t ∈ run e evs, ∀ crt, t.cert = some crt →
      (∀ b, t.key = .tcp b → Spec.ShownTCP e evs b crt) ∧
      (t.key = .quic → ∃ b, (e.be b).clientAuth ≠ none ∧ Spec.ShownQUIC e evs (e.cas b) crt) := by
  induction evs using snoc_induction with
  | h0 => intro t ht; simp [run] at ht
  | hs evs ev ih =>
    intro t ht crt hcrt
    have hrun : run e (evs ++ [ev]) = step e (run e evs) ev := by simp [run]
    rw [hrun] at ht
    have old : t ∈ run e evs →
        (∀ b, t.key = .tcp b → Spec.ShownTCP e (evs ++ [ev]) b crt) ∧
        (t.key = .quic → ∃ b, (e.be b).clientAuth ≠ none ∧ Spec.ShownQUIC e (evs ++ [ev]) (e.cas b) crt) := by
      intro hm
      obtain ⟨h1, h2⟩ := ih t hm crt hcrt
      refine ⟨fun b hb => (h1 b hb).mono ev, fun hq => ?_⟩
      obtain ⟨b, ha, hs⟩ := h2 hq
      exact ⟨b, ha, hs.mono ev⟩
    cases ev with
    | tcp w now c o =>
      simp only [step] at ht
      split at ht
      · exact old ht
      · rename_i b hb
        rw [List.mem_append] at ht
        rcases ht with ht | ht
        · exact old ht
        · obtain ⟨sni, protos, hh, hr⟩ := tcpBackend_some hb
          unfold issue at ht
          split at ht
          · simp at ht
          · rename_i p cert hs
            simp only [List.mem_singleton] at ht
            subst ht
            simp only at hcrt
            subst hcrt
            obtain ⟨_, hc, hch⟩ := handshake_cert hs
            refine ⟨fun b' hb' => ?_, fun hq => by simp at hq⟩
            simp only [Key.tcp.injEq] at hb'
            subst hb'
            rcases clientOf_cert hc hch with ⟨ho, hx⟩ | ⟨t', ht', hk', hc', _⟩
            · exact ⟨w, now, c, o, sni, protos, by simp, hh, hr, ho, hx⟩
            · exact ((ih t' ht' crt hc').1 b hk').mono _
    | quic w declared now c o =>
      simp only [step] at ht
      split at ht
      · exact old ht
      · rename_i b hb
        rw [List.mem_append] at ht
        rcases ht with ht | ht
        · exact old ht
        · unfold issue at ht
          split at ht
          · simp at ht
          · rename_i p cert hs
            simp only [List.mem_singleton] at ht
            subst ht
            simp only at hcrt
            subst hcrt
            obtain ⟨ha, hc, hch⟩ := handshake_cert hs
            refine ⟨fun b' hb' => by simp at hb', fun _ => ?_⟩
            rcases clientOf_cert hc hch with ⟨ho, hx⟩ | ⟨t', ht', hk', hc', _⟩
            · exact ⟨b, ha, w, declared, now, c, o, by simp, ho, hx⟩
            · obtain ⟨b1, ha1, hs1⟩ := (ih t' ht' crt hc').2 hk'
              exact ⟨b1, ha1, hs1.mono _⟩

/-! ## C123 over TCP -/

/-- C123 (TCP). In every course of events, with any number of reloads and revocations: whenever
a TCP connection reaches a server or handler of a backend that asks for certificates, by a full
handshake or a resumed one, the connection has a certificate that the backend's list admits
now, and that a client presented in a connection to this very backend, where it verified
against this backend's own CAs: now, or earlier and then it has not expired. -/
theorem tcp_own_cas (e : Env) (evs : List Ev) (w : World) (now : Nat) (c : Conn) (o : Offer)
    (pre post : List Event) (x : Event) (b : Nat) (acl : Option (List String))
    (ht : runTCP e (run e evs) (world e w) now c o = pre ++ x :: post)
    (hx : Dispatch.Spec.contact x = some b) (hmode : (e.be b).mode ≠ "TLSPASSTHROUGH")
    (hacl : (e.be b).clientAuth = some acl) :
    ∃ crt, .authorized b (some crt) ∈ pre ∧ authorize acl crt = true ∧
      ((o.cert = some crt ∧ e.chains now (e.cas b) crt = true) ∨
       (now ≤ e.notAfter crt ∧ Spec.ShownTCP e evs b crt)) := by
  unfold runTCP at ht
  split at ht
  · rename_i hnone
    obtain ⟨_, sni, protos, hh, hr, _⟩ := no_contact_before_checks _ _ pre post x b ht hx
    unfold tcpBackend at hnone
    rw [hh] at hnone
    simp only [hr] at hnone
    cases hnone
  · rename_i b' hb'
    obtain ⟨_, sni, protos, hh, hr, _, _, hrest⟩ := no_contact_before_checks _ _ pre post x b ht hx
    obtain ⟨sni', protos', hh', hr'⟩ := tcpBackend_some hb'
    simp only at hh
    rw [hh] at hh'
    cases hh'
    rw [hr] at hr'
    cases hr'
    obtain ⟨_, cert, hin, _, hc⟩ := hrest hmode
    obtain ⟨crt, rfl, h1, h2, h3⟩ := hc acl hacl
    refine ⟨crt, hin, h3, ?_⟩
    rcases clientOf_cert h1 h2 with h | ⟨t, ht, hk, hct, hna, _⟩
    · exact Or.inl h
    · exact Or.inr ⟨hna, (tickets_shown e evs t ht crt hct).1 b hk⟩

/-- C123 (TCP, partial). If certificates verify against a set of CAs for as long as they have
not expired (no CA expires before the certificates it issued), then a TCP connection, resumed
or not, reaches a backend that asks for certificates only with one that would verify against
that backend's CAs at this moment. Missing: CAs that expire first, see `chain_now_violated`. -/
theorem tcp_as_full_partial (e : Env)
    (hstable : ∀ t t' roots crt, e.chains t roots crt = true → t' ≤ e.notAfter crt →
      e.chains t' roots crt = true)
    (evs : List Ev) (w : World) (now : Nat) (c : Conn) (o : Offer)
    (pre post : List Event) (x : Event) (b : Nat) (acl : Option (List String))
    (ht : runTCP e (run e evs) (world e w) now c o = pre ++ x :: post)
    (hx : Dispatch.Spec.contact x = some b) (hmode : (e.be b).mode ≠ "TLSPASSTHROUGH")
    (hacl : (e.be b).clientAuth = some acl) :
    ∃ crt, .authorized b (some crt) ∈ pre ∧ authorize acl crt = true ∧
      e.chains now (e.cas b) crt = true := by
  obtain ⟨crt, hin, ha, h⟩ := tcp_own_cas e evs w now c o pre post x b acl ht hx hmode hacl
  refine ⟨crt, hin, ha, ?_⟩
  rcases h with ⟨_, h⟩ | ⟨hna, _, t, _, _, _, _, _, _, _, _, hch⟩
  · exact h
  · exact hstable t now _ crt hch hna

/-- C123 (TCP). A revoked certificate is refused on resumption as well: whenever the second
lookup agrees with the backend that serves the connection, a ticket with a certificate the
backend knows to be revoked does not get the client to its servers or handlers. -/
theorem tcp_revoked_ticket (e : Env) (ts : List Ticket) (w : World) (now : Nat) (c : Conn)
    (o : Offer) (b : Nat) (t : Ticket) (crt : Cert)
    (hb : tcpBackend (world e w) c = some b) (hca : (e.be b).clientAuth ≠ none)
    (hnp : (e.be b).mode ≠ "TLSPASSTHROUGH")
    (hr : resumed e ts now b (.tcp b) o = some t) (hc : t.cert = some crt)
    (hrev : Dispatch.Spec.revoked (world e w) b crt)
    (hagree : ∀ p, negotiateALPN (e.be b).nextProtosTCP o.protos false = some p →
      w.route o.sni [p] = .to b) :
    Event.http b ∉ runTCP e ts (world e w) now c o ∧ Event.dial b ∉ runTCP e ts (world e w) now c o := by
  have hcl : clientOf e ts now b (.tcp b) o =
      { sni := o.sni, protos := o.protos, cert := some crt, chainOK := true, restOK := o.restOK } := by
    unfold clientOf
    rw [hr]
    simp only [hc]
  unfold runTCP
  rw [hb]
  simp only
  apply revoked_refused_partial _ _ b crt hca hnp (by simp only [hcl]) hrev
  intro p hp
  simp only [hcl] at hp ⊢
  exact hagree p hp

/-! ## C123 over QUIC -/

/-- C123 (QUIC, partial). In every course of events: whenever a QUIC connection is served by
the backend whose settings the handshake used, and that backend asks for certificates, the
client's certificate verified in some QUIC connection (now or earlier) against the CAs of a
backend that asks for certificates; and against this backend's own CAs if the TLS library
verifies again on resumption, or if all such backends (of all configurations loaded so far)
have the same CAs. Missing: backends with different CAs, see `quic_own_cas_violated`. -/
theorem quic_own_cas_partial (e : Env) (evs : List Ev) (w : World)
    (declared : String → String → Option Nat) (now : Nat) (c : QConn) (o : Offer)
    (x : QEvent) (b : Nat)
    (hx : x ∈ runQUIC e (run e evs) (world e w) declared now c o)
    (hq : Dispatch.Spec.qcontact x = some b)
    (hown : configForClient (world e w) declared o.sni o.protos = some b)
    (hauth : (e.be b).clientAuth ≠ none)
    (hsame : e.recheck = true ∨
      ∀ b1 b2, (e.be b1).clientAuth ≠ none → (e.be b2).clientAuth ≠ none → e.cas b1 = e.cas b2) :
    ∃ crt, ((clientOf e (run e evs) now b .quic o).cert = some crt) ∧
      (e.chains now (e.cas b) crt = true ∨
       (now ≤ e.notAfter crt ∧ Spec.ShownQUIC e evs (e.cas b) crt)) := by
  unfold runQUIC at hx
  rw [hown] at hx
  simp only at hx
  have hhs : ∃ p crt, handshake (world e w) (e.be b) (e.be b).nextProtosQUIC true
      (clientOf e (run e evs) now b .quic o) = some (p, some crt) := by
    have hsni : (clientOf e (run e evs) now b .quic o).sni = o.sni ∧
        (clientOf e (run e evs) now b .quic o).protos = o.protos := by
      unfold clientOf; split <;> exact ⟨rfl, rfl⟩
    unfold handleQUIC at hx
    simp only [hsni.1, hsni.2, hown] at hx
    split at hx
    · simp only [List.mem_singleton] at hx
      subst hx; simp [Dispatch.Spec.qcontact] at hq
    · rename_i p cert hs
      have hs' : handshake (world e w) (e.be b) (e.be b).nextProtosQUIC true
        (clientOf e (run e evs) now b .quic o) = some (p, cert) := hs
      refine ⟨p, ?_⟩
      cases cert with
      | some crt => exact ⟨crt, hs'⟩
      | none =>
        exfalso
        unfold handshake at hs'
        split at hs'
        · cases hs'
        · split at hs'
          · cases hs'
          · split at hs'
            · rename_i hn; exact hauth hn
            · split at hs'
              · cases hs'
              · split at hs'
                · cases hs'
                · split at hs' <;> cases hs'
  obtain ⟨p, crt, hs⟩ := hhs
  obtain ⟨_, hc, hch⟩ := handshake_cert hs
  refine ⟨crt, hc, ?_⟩
  rcases clientOf_cert hc hch with ⟨_, h⟩ | ⟨t, ht, hk, hct, hna, hre⟩
  · exact Or.inl h
  · rcases hsame with hr | hs
    · exact Or.inl (hre hr)
    · obtain ⟨b1, ha1, h1⟩ := (tickets_shown e evs t ht crt hct).2 hk
      exact Or.inr ⟨hna, by rw [← hs b1 b ha1 hauth]; exact h1⟩

/-! ### Witnesses -/

/-- Backend 0 trusts CA 1, backend 1 trusts CA 2; both relay QUIC. Backend 2 trusts CA 1 and
serves HTTP over TCP, backend 3 is like it but trusts CA 2. A certificate verifies against a CA
named by its authority key id, while that CA is valid: CA 1 until time 50. -/
def Spec.env : Env where
  be i := if i ≤ 1 then { mode := "QUIC", protos := ["q"], clientAuth := some none }
    else { mode := "HTTP", protos := ["h2"], clientAuth := some none }
  cas i := if i = 0 ∨ i = 2 then [1] else [2]
  chains t roots c := roots.any fun r => c.authorityKeyId = (if r = 1 then "ca1" else "ca2") &&
    decide (t ≤ 100) && (decide (t ≤ 50) || r ≠ 1)
  notAfter _ := 100

/-- The proxy when the name "a" leads to backend `b`. -/
def Spec.w (b : Nat) : World where
  route n _ := if n = "a" then .to b else .unexpectedSNI
  be := Spec.env.be
  isRevoked _ _ := false
  ocspOK _ := true
  defaultServerName := "a"
  maxOpen := 5

def Spec.crt : Cert := { subject := "CN=x", authorityKeyId := "ca1", serial := 7 }

def Spec.declared (b : Nat) (n p : String) : Option Nat :=
  if n = "a" ∧ p = "q" then some b else none

def Spec.qconn : QConn :=
  { client := { sni := "", protos := [] }, numOpen := 1, addr := some [1, 2, 3, 4] }

def Spec.conn : Conn :=
  { client := { sni := "", protos := [] }, numOpen := 1, addr := some [1, 2, 3, 4],
    hello := some ("a", ["h2"]) }

/-- A full handshake with backend `b` at time `t`, over QUIC. -/
def Spec.full (b t : Nat) : Ev :=
  .quic (Spec.w b) (Spec.declared b) t Spec.qconn { sni := "a", protos := ["q"], cert := some Spec.crt }

/-- The same over TCP. -/
def Spec.fullTCP (b t : Nat) : Ev :=
  .tcp (Spec.w b) t Spec.conn { sni := "a", protos := ["h2"], cert := some Spec.crt }

/-- C123 (QUIC, violated). With the Go release of go.mod: a client whose certificate comes from
CA 1 connects to backend 0, which trusts CA 1. Then the configuration is changed: the name is
now served by backend 1, which trusts only CA 2 (the same happens between two backends of one
configuration). A new handshake with that certificate is refused, but the session ticket is
accepted and backend 1's servers are dialed. -/
theorem quic_own_cas_violated :
    ¬ ∀ (e : Env) (evs : List Ev) (w : World) (declared : String → String → Option Nat) (now : Nat)
      (c : QConn) (o : Offer) (x : QEvent) (b : Nat),
      x ∈ runQUIC e (run e evs) (world e w) declared now c o →
      Dispatch.Spec.qcontact x = some b →
      configForClient (world e w) declared o.sni o.protos = some b →
      (e.be b).clientAuth ≠ none →
      ∃ crt, ((clientOf e (run e evs) now b .quic o).cert = some crt) ∧
        (e.chains now (e.cas b) crt = true ∨ Spec.ShownQUIC e evs (e.cas b) crt) := by
  intro h
  obtain ⟨crt, h1, h2⟩ := h Spec.env [Spec.full 0 10] (Spec.w 1) (Spec.declared 1) 20 Spec.qconn
    { sni := "a", protos := ["q"], ticket := some 0 } (.dialQUIC 1) 1
    (by decide +kernel) rfl (by decide +kernel) (by decide)
  have hcrt : crt = Spec.crt := by
    have : (clientOf Spec.env (run Spec.env [Spec.full 0 10]) 20 1 .quic
      { sni := "a", protos := ["q"], ticket := some 0 }).cert = some Spec.crt := by decide +kernel
    rw [this] at h1; cases h1; rfl
  subst hcrt
  rcases h2 with h2 | ⟨w, d, t, c, o, hm, ho, hch⟩
  · revert h2; decide +kernel
  · simp only [Spec.full, List.mem_singleton, Ev.quic.injEq] at hm
    obtain ⟨_, _, rfl, _, _⟩ := hm
    revert hch; decide +kernel

/-- The certificate itself is refused by backend 1, at the same moment. -/
example : runQUIC Spec.env (run Spec.env [Spec.full 0 10]) (world Spec.env (Spec.w 1)) (Spec.declared 1) 20
    Spec.qconn { sni := "a", protos := ["q"], cert := some Spec.crt } = [.refused] := by decide +kernel

/-- A library that verifies again refuses the ticket as well; backend 0 accepts it. -/
example : runQUIC { Spec.env with recheck := true } (run { Spec.env with recheck := true } [Spec.full 0 10])
      (world Spec.env (Spec.w 1)) (Spec.declared 1) 20
      Spec.qconn { sni := "a", protos := ["q"], ticket := some 0 } = [.refused] ∧
    .dialQUIC 0 ∈ runQUIC { Spec.env with recheck := true } (run { Spec.env with recheck := true } [Spec.full 0 10])
      (world Spec.env (Spec.w 0)) (Spec.declared 0) 20
      Spec.qconn { sni := "a", protos := ["q"], ticket := some 0 } := by decide +kernel

/-- The same change of configuration over TCP: the ticket is not accepted by backend 3; it is
by backend 2, also after some time, but not after the certificate expired. -/
example :
    runTCP Spec.env (run Spec.env [Spec.fullTCP 2 10]) (world Spec.env (Spec.w 3)) 20 Spec.conn
      { sni := "a", protos := ["h2"], ticket := some 0 } = [.ipAllowed 3, .closed] ∧
    runTCP Spec.env (run Spec.env [Spec.fullTCP 2 10]) (world Spec.env (Spec.w 2)) 40 Spec.conn
      { sni := "a", protos := ["h2"], ticket := some 0 } =
        [.ipAllowed 2, .authorized 2 (some Spec.crt), .http 2] ∧
    runTCP Spec.env (run Spec.env [Spec.fullTCP 2 10]) (world Spec.env (Spec.w 2)) 140 Spec.conn
      { sni := "a", protos := ["h2"], ticket := some 0 } = [.ipAllowed 2, .closed] := by decide +kernel

/-- C123 (TCP, violated in part). When a CA expires before a certificate it issued, a full
handshake with the certificate is refused but the session is resumed. -/
theorem chain_now_violated :
    ¬ ∀ (e : Env) (evs : List Ev) (w : World) (now : Nat) (c : Conn) (o : Offer)
      (pre post : List Event) (x : Event) (b : Nat) (acl : Option (List String)),
      runTCP e (run e evs) (world e w) now c o = pre ++ x :: post →
      Dispatch.Spec.contact x = some b → (e.be b).mode ≠ "TLSPASSTHROUGH" →
      (e.be b).clientAuth = some acl →
      ∃ crt, .authorized b (some crt) ∈ pre ∧ e.chains now (e.cas b) crt = true := by
  intro h
  obtain ⟨crt, h1, h2⟩ := h Spec.env [Spec.fullTCP 2 10] (Spec.w 2) 60 Spec.conn
    { sni := "a", protos := ["h2"], ticket := some 0 }
    [.ipAllowed 2, .authorized 2 (some Spec.crt)] [] (.http 2) 2 none (by decide +kernel) rfl
    (by decide) (by decide)
  simp only [List.mem_cons, reduceCtorEq, Event.authorized.injEq, Option.some.injEq, true_and,
    List.not_mem_nil, or_false, false_or] at h1
  subst h1
  revert h2; decide +kernel

/-- Backends that know CA 1 as a local one, which revoked serial number 7 after the ticket was
issued. -/
def Spec.envRev : Env :=
  { Spec.env with
    be := fun i => { Spec.env.be i with pkiMap := fun k => if k = "ca1" then some 0 else none } }

/-- The hypotheses of `tcp_revoked_ticket`: the ticket is usable, the certificate revoked; the
same ticket was good before. -/
example :
    resumed Spec.envRev (run Spec.envRev [Spec.fullTCP 2 10]) 20 2 (.tcp 2)
      { sni := "a", protos := ["h2"], ticket := some 0 } = some { key := .tcp 2, cert := some Spec.crt } ∧
    runTCP Spec.envRev (run Spec.envRev [Spec.fullTCP 2 10])
      (world Spec.envRev { Spec.w 2 with isRevoked := fun ca n => ca = 0 ∧ n = 7 }) 20 Spec.conn
      { sni := "a", protos := ["h2"], ticket := some 0 } = [.ipAllowed 2, .closed] ∧
    Event.http 2 ∈ runTCP Spec.envRev (run Spec.envRev [Spec.fullTCP 2 10])
      (world Spec.envRev (Spec.w 2)) 20 Spec.conn
      { sni := "a", protos := ["h2"], ticket := some 0 } := by decide +kernel

/-! ## Which tickets there are, and what they are good for -/

/-- C123 (what a resumed connection has). A connection is resumed with a certificate where the backend demands one, and
without one where it does not; it never inherits the lack of a certificate, or one that nobody asked for. -/
theorem resumed_cert {e : Env} {ts : List Ticket} {now b : Nat} {key : Key} {o : Offer} {t : Ticket}
    (h : resumed e ts now b key o = some t) : t.cert ≠ none ↔ (e.be b).clientAuth ≠ none := by
  unfold resumed at h
  split at h
  · cases h
  · split at h
    · cases h
    · split at h
      · rename_i hu
        cases h
        unfold usable at hu
        cases hc : t.cert <;> cases ha : (e.be b).clientAuth <;> simp [hc, ha] at hu ⊢
      · cases h

theorem authorizeTLS_ticket (e : Env) (ts : List Ticket) (w : World) (now : Nat) (c : Conn) (o : Offer) (b : Nat)
    (crt : Option Cert) (hb : tcpBackend (world e w) c = some b) (n : String)
    (h : authorizeTLS (world e w) b n (clientOf e ts now b (.tcp b) o) = some crt) :
    step e ts (.tcp w now c o) = ts ++ [⟨.tcp b, crt⟩] := by
  unfold step
  dsimp only
  rw [hb]
  dsimp only
  unfold authorizeTLS at h
  dsimp only at h
  have hbe : (world e w).be b = e.be b := rfl
  rw [hbe] at h
  cases hh : handshake (world e w) (e.be b) (e.be b).nextProtosTCP false (clientOf e ts now b (.tcp b) o) with
  | none => rw [hh] at h; cases h
  | some p =>
    obtain ⟨proto, cert⟩ := p
    rw [hh] at h
    dsimp only at h
    have : cert = crt := by
      split at h
      · cases h
      · split at h
        · split at h
          · cases h
          · split at h <;> cases h; rfl
        · cases h; rfl
    rw [← this]
    rfl

theorem dispatch_authorized {w : World} {b b' : Nat} {n sni : String} {protos : List String} {c : Conn} {crt : Option Cert}
    (h : .authorized b' crt ∈ dispatch w b n sni protos c) : b' = b ∧ authorizeTLS w b n c.client = some crt := by
  unfold dispatch at h
  dsimp only at h
  split at h
  · split at h
    · simp at h
    · simp [Reload.passthrough_unauthorized] at h
  · split at h
    · simp at h
    · split at h
      · split at h
        · simp at h
        · simpa [Reload.handleHTTP_authorized] using h
      · split at h
        · split at h
          · simp at h
          · simpa [Reload.handleTLS_authorized] using h
        · simp at h

/-- C123 (tickets). A TCP connection that was authorized gets a ticket of its own backend with the certificate it was
authorized with. -/
theorem authorized_ticket (e : Env) (ts : List Ticket) (w : World) (now : Nat) (c : Conn) (o : Offer) (b : Nat)
    (crt : Option Cert) (h : .authorized b crt ∈ runTCP e ts (world e w) now c o) :
    step e ts (.tcp w now c o) = ts ++ [⟨.tcp b, crt⟩] := by
  unfold runTCP at h
  cases hb : tcpBackend (world e w) c with
  | none =>
    rw [hb] at h
    dsimp only at h
    unfold handleConnection at h
    split at h
    · simp at h
    · split at h
      · simp at h
      · rename_i sni protos hh
        dsimp only at h
        split at h
        · rename_i b' hr
          unfold tcpBackend at hb
          rw [hh] at hb
          dsimp only at hb
          rw [hr] at hb
          cases hb
        · simp at h
  | some b0 =>
    rw [hb] at h
    dsimp only at h
    obtain ⟨sni, protos, hh, hr⟩ := tcpBackend_some hb
    unfold handleConnection at h
    dsimp only at h
    split at h
    · simp at h
    · rw [hh] at h
      dsimp only at h
      rw [hr] at h
      obtain ⟨rfl, h⟩ := dispatch_authorized h
      exact authorizeTLS_ticket e ts w now c o b crt hb _ h

/-- C123 (tickets). A QUIC connection that is refused during the handshake gets no ticket, and any other one gets one. -/
theorem quic_ticket (e : Env) (ts : List Ticket) (w : World) (declared : String → String → Option Nat) (now : Nat)
    (c : QConn) (o : Offer) :
    step e ts (.quic w declared now c o) = ts ↔ runQUIC e ts (world e w) declared now c o = [.refused] := by
  unfold step runQUIC
  dsimp only
  cases hb : configForClient (world e w) declared o.sni o.protos with
  | none => simp
  | some b =>
    dsimp only
    have hsni : (clientOf e ts now b .quic o).sni = o.sni ∧ (clientOf e ts now b .quic o).protos = o.protos := by
      unfold clientOf; split <;> exact ⟨rfl, rfl⟩
    unfold handleQUIC
    dsimp only
    rw [hsni.1, hsni.2, hb]
    dsimp only
    have hbe : (world e w).be b = e.be b := rfl
    rw [hbe]
    cases hh : handshake (world e w) (e.be b) (e.be b).nextProtosQUIC true (clientOf e ts now b .quic o) with
    | none => simp [issue]
    | some p =>
      obtain ⟨proto, cert⟩ := p
      dsimp only
      refine ⟨fun h => ?_, fun h => ?_⟩
      · simp [issue] at h
      · exfalso
        split at h
        · split at h
          · cases h
          · split at h
            · cases h
            · split at h
              · cases h
              · split at h
                · cases h
                · split at h <;> cases h
        · cases h

/-- Non-vacuity: a client that offers no protocol at all is authorized over TCP and gets a ticket; over QUIC it gets none. -/
example : .authorized 2 (some Spec.crt) ∈ runTCP Spec.env [] (world Spec.env (Spec.w 2)) 10 Spec.conn
      { sni := "a", protos := [], cert := some Spec.crt } ∧
    runQUIC Spec.env [] (world Spec.env (Spec.w 0)) (Spec.declared 0) 10 Spec.qconn
      { sni := "a", protos := [], cert := some Spec.crt } = [.refused] := by
  decide +kernel

end Verif.Resume
