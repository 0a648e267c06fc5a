import Verif.Model.Caching
import Verif.Props.Keys

/-!
# C150: What caches keep of the proxy's documents is good enough

Statements: whatever a shared cache between clients and the proxy delivers is what the proxy would have
answered to this very client, not longer ago than the document says; a confirmation (304) is given only for
what is still right; errors are not kept; personal documents are not given to somebody else; a set of keys, an
OCSP answer, a revocation list and a certificate from a cache are still good to verify what is signed now.
-/

namespace Verif.Caching
open Verif.Path (Str)

/-! ## Specification -/

/-- How old a document may be when it reaches a client, in seconds. -/
def Spec.age : Doc → Nat
  | .style | .script | .static => 0
  | .favicon | .caCert _ | .sshKey => 86400
  | .wellKnown | .jwks | .discovery => 3600
  | .crl _ | .ocsp => 1800
  | .sshCert | .token | .userInfo | .status => 0

/-- Documents that say something about who asks. -/
def Spec.Personal (d : Doc) : Prop := d = .sshCert ∨ d = .token ∨ d = .userInfo ∨ d = .status

/-- Requests in the order of time, from `t` to `n`. -/
def Spec.InOrder (t : Nat) : List Visit → Nat → Prop
  | [], n => t ≤ n
  | v :: vs, n => t ≤ v.now ∧ Spec.InOrder v.now vs n

/-- The request without conditions. -/
def Spec.bare (r : Req) : Req := { r with inm := [] }

/-- Different contents have different digests. -/
def Spec.NoCollisions (env : Env) : Prop := ∀ a b, env.sha a = env.sha b → a = b

/-! ## The handlers -/

def ctl : Doc → Control
  | .style | .script => .pub none
  | .wellKnown | .jwks | .discovery => .pub (some 3600)
  | .caCert _ => .pub (some 86400)
  | .crl _ => .pub (some 1800)
  | _ => .absent

def bodyOf (env : Env) (d : Doc) (path x : Str) : Str :=
  if d = .static then env.unpack path x else x

theorem fault_code (f : Fault) : 400 ≤ f.code ∧ f.code ≤ 500 := by
  cases f <;> decide

theorem plain_shape (c : Control) (x : Str ⊕ Fault) :
    (plain c x).etag = none ∧ (plain c x).status ≠ 304 := by
  cases x with
  | inl b => exact ⟨rfl, by simp [plain]⟩
  | inr f =>
    refine ⟨rfl, ?_⟩
    have := fault_code f
    simp only [plain, httpError]
    omega

/-- Handlers with an Etag, and handlers without. -/
theorem shape (env : Env) (s : Server) (d : Doc) (r : Req) :
    (∃ x, ∀ i, serve env s d { r with inm := i } =
      confirm env (ctl d) x (bodyOf env d r.path x) { r with inm := i }) ∨
    (∃ p, p.etag = none ∧ p.status ≠ 304 ∧ ∀ i, serve env s d { r with inm := i } = p) := by
  cases d with
  | style => exact .inl ⟨s.style, fun i => rfl⟩
  | script => exact .inl ⟨s.script, fun i => rfl⟩
  | favicon => exact .inr ⟨_, rfl, by simp, fun i => rfl⟩
  | wellKnown => exact .inl ⟨s.wellKnown r.host, fun i => rfl⟩
  | jwks => exact .inl ⟨s.jwks, fun i => rfl⟩
  | discovery => exact .inl ⟨s.discovery, fun i => rfl⟩
  | caCert p =>
    cases h : s.ca with
    | none => exact .inr ⟨httpError .absent 500, rfl, by simp [httpError], fun i => by simp [serve, h]⟩
    | some ca => exact .inl ⟨caBody s p ca, fun i => by simp [serve, h, send, ctl, bodyOf]⟩
  | crl p =>
    cases h : s.crl p with
    | none =>
      exact .inr ⟨httpError (.pub (some 1800)) 500, rfl, by simp [httpError], fun i => by simp [serve, h]⟩
    | some b => exact .inl ⟨b, fun i => by simp [serve, h, send, ctl, bodyOf]⟩
  | ocsp => exact .inr ⟨plain (.pub (some 1800)) (s.ocsp r.path), (plain_shape _ _).1, (plain_shape _ _).2, fun i => rfl⟩
  | sshKey =>
    cases h : s.sshKey with
    | none => exact .inr ⟨httpError .absent 500, rfl, by simp [httpError], fun i => by simp [serve, h]⟩
    | some b =>
      exact .inr ⟨plain (.pub (some 86400)) (.inl b), rfl, by simp [plain], fun i => by simp [serve, h]⟩
  | sshCert => exact .inr ⟨plain (.noStore) (s.sshCert r.user), (plain_shape _ _).1, (plain_shape _ _).2, fun i => rfl⟩
  | token => exact .inr ⟨plain (.noStore) (s.token r.user), (plain_shape _ _).1, (plain_shape _ _).2, fun i => rfl⟩
  | userInfo => exact .inr ⟨plain (.noStore) (s.userInfo r.user), (plain_shape _ _).1, (plain_shape _ _).2, fun i => rfl⟩
  | static =>
    cases h : s.static r.path with
    | none => exact .inr ⟨httpError .absent 404, rfl, by simp [httpError], fun i => by simp [serve, h]⟩
    | some f => exact .inl ⟨f, fun i => by simp [serve, h, ctl, bodyOf]⟩
  | status => exact .inr ⟨plain (.absent) (s.statusPage r.user), (plain_shape _ _).1, (plain_shape _ _).2, fun i => rfl⟩

/-- C150. Who is not told that their copy is good is given the document, or an error. -/
theorem answered (env : Env) (s : Server) (d : Doc) (r : Req) :
    (serve env s d r).status = 200 ∨
    ((serve env s d r).status = 304 ∧ (serve env s d r).etag = some r.inm ∧ r.inm ≠ []) ∨
    400 ≤ (serve env s d r).status ∧ (serve env s d r).body = [] := by
  have hc : ∀ c x y, (confirm env c x y r).status = 200 ∨
      ((confirm env c x y r).status = 304 ∧ (confirm env c x y r).etag = some r.inm ∧ r.inm ≠ []) := by
    intro c x y
    unfold confirm
    split
    · rename_i h
      exact .inr ⟨rfl, by rw [h], by rw [h]; simp [quoted]⟩
    · exact .inl rfl
  have hp : ∀ c x, (plain c x).status = 200 ∨ 400 ≤ (plain c x).status ∧ (plain c x).body = [] := by
    intro c x
    cases x with
    | inl b => exact .inl rfl
    | inr f => exact .inr ⟨(fault_code f).1, rfl⟩
  have lift : ∀ p : Reply, (p.status = 200 ∨ (p.status = 304 ∧ p.etag = some r.inm ∧ r.inm ≠ [])) →
      (p.status = 200 ∨ (p.status = 304 ∧ p.etag = some r.inm ∧ r.inm ≠ []) ∨ 400 ≤ p.status ∧ p.body = []) :=
    fun p h => h.imp id .inl
  have lift' : ∀ p : Reply, (p.status = 200 ∨ 400 ≤ p.status ∧ p.body = []) →
      (p.status = 200 ∨ (p.status = 304 ∧ p.etag = some r.inm ∧ r.inm ≠ []) ∨ 400 ≤ p.status ∧ p.body = []) :=
    fun p h => h.imp id .inr
  cases d with
  | style => exact lift _ (hc _ _ _)
  | script => exact lift _ (hc _ _ _)
  | favicon => exact .inl rfl
  | wellKnown => exact lift _ (hc _ _ _)
  | jwks => exact lift _ (hc _ _ _)
  | discovery => exact lift _ (hc _ _ _)
  | caCert p =>
    simp only [serve]
    split
    · exact lift' _ (.inr ⟨by decide, rfl⟩)
    · exact lift _ (hc _ _ _)
  | crl p =>
    simp only [serve]
    split
    · exact lift' _ (.inr ⟨by decide, rfl⟩)
    · exact lift _ (hc _ _ _)
  | ocsp => exact lift' _ (hp _ _)
  | sshKey =>
    simp only [serve]
    split
    · exact lift' _ (.inr ⟨by decide, rfl⟩)
    · exact lift' _ (hp _ _)
  | sshCert => exact lift' _ (hp _ _)
  | token => exact lift' _ (hp _ _)
  | userInfo => exact lift' _ (hp _ _)
  | static =>
    simp only [serve]
    split
    · exact lift' _ (.inr ⟨by decide, rfl⟩)
    · exact lift _ (hc _ _ _)
  | status => exact lift' _ (hp _ _)

theorem quoted_inj {env : Env} (h : Spec.NoCollisions env) {a b : Str}
    (he : quoted env a = quoted env b) : a = b := by
  unfold quoted at he
  rw [List.cons.injEq] at he
  exact h _ _ (List.append_cancel_right he.2)

theorem quoted_ne (env : Env) (a : Str) : [] ≠ quoted env a := by simp [quoted]

/-- Unless it is a confirmation, the reply does not depend on the condition. -/
theorem unconditional {env : Env} {s : Server} {d : Doc} {r : Req}
    (h : (serve env s d r).status ≠ 304) : serve env s d r = serve env s d (Spec.bare r) := by
  rcases shape env s d r with ⟨x, hx⟩ | ⟨p, -, -, hp⟩
  · have h1 := hx r.inm
    have h2 := hx []
    change serve env s d r = _ at h1
    unfold Spec.bare
    rw [h1] at h ⊢
    rw [h2]
    unfold confirm at h ⊢
    dsimp only at h ⊢
    by_cases hq : r.inm = quoted env x
    · rw [if_pos hq] at h; exact absurd rfl h
    · rw [if_neg hq, if_neg (quoted_ne env x)]
  · exact (hp r.inm).trans (hp []).symm

theorem bare_status (env : Env) (s : Server) (d : Doc) (r : Req) :
    (serve env s d (Spec.bare r)).status ≠ 304 := by
  rcases shape env s d r with ⟨x, hx⟩ | ⟨p, -, h, hp⟩
  · have := hx []
    unfold Spec.bare
    rw [this]
    unfold confirm
    dsimp only
    rw [if_neg (quoted_ne env x)]
    simp
  · rw [show serve env s d (Spec.bare r) = p from hp []]
    exact h

/-- C150, conditional requests. If a client has a document that the proxy sent at some time, in whatever
state it was, and asks again with the Etag that came with it, then a confirmation means that what it has
is exactly what the proxy would send now, header and all. -/
theorem confirmed_current (env : Env) (hn : Spec.NoCollisions env) (s0 s1 : Server) (d : Doc) (r : Req)
    (tag : Str) (ht : (serve env s0 d (Spec.bare r)).etag = some tag)
    (h : (serve env s1 d { r with inm := tag }).status = 304) :
    serve env s1 d (Spec.bare r) = serve env s0 d (Spec.bare r) := by
  rcases shape env s0 d r with ⟨x, hx⟩ | ⟨p, he, -, hp⟩
  · rcases shape env s1 d r with ⟨y, hy⟩ | ⟨q, -, hq, hp⟩
    · have h0 := hx []
      unfold Spec.bare at ht ⊢
      rw [h0] at ht ⊢
      rw [hy []]
      rw [hy tag] at h
      unfold confirm at ht h ⊢
      dsimp only at ht h ⊢
      rw [if_neg (quoted_ne env x)] at ht ⊢
      rw [if_neg (quoted_ne env y)]
      have hty : tag = quoted env y := by
        by_cases hq : tag = quoted env y
        · exact hq
        · rw [if_neg hq] at h; simp at h
      have htx : quoted env x = tag := by simpa using ht
      have : x = y := quoted_inj hn (htx.trans hty)
      rw [this]
    · rw [hp tag] at h
      exact absurd h hq
  · rw [show serve env s0 d (Spec.bare r) = p from hp []] at ht
    rw [he] at ht
    exact absurd ht (by simp)

/-- C150. And nothing is sent twice: as long as the document is the same, the Etag is answered with a
confirmation. -/
theorem same_confirmed (env : Env) (s0 s1 : Server) (d : Doc) (r : Req) (tag : Str)
    (ht : (serve env s0 d (Spec.bare r)).etag = some tag)
    (hs : serve env s1 d (Spec.bare r) = serve env s0 d (Spec.bare r)) :
    (serve env s1 d { r with inm := tag }).status = 304 := by
  rw [← hs] at ht
  rcases shape env s1 d r with ⟨x, hx⟩ | ⟨p, he, -, hp⟩
  · unfold Spec.bare at ht
    rw [hx []] at ht
    rw [hx tag]
    unfold confirm at ht ⊢
    dsimp only at ht ⊢
    rw [if_neg (quoted_ne env x)] at ht
    have : tag = quoted env x := by simpa using ht.symm
    rw [if_pos this]
  · rw [show serve env s1 d (Spec.bare r) = p from hp [], he] at ht
    exact absurd ht (by simp)

/-! ## The cache -/

theorem impersonal {d : Doc} (h : ¬ Spec.Personal d) (env : Env) (s : Server) (r r' : Req)
    (hh : r'.host = r.host) (hp : r'.path = r.path) (hi : r'.inm = r.inm) :
    serve env s d r' = serve env s d r := by
  obtain ⟨a, b, c, u⟩ := r
  obtain ⟨a', b', c', u'⟩ := r'
  dsimp only at hh hp hi
  subst hh hp hi
  cases d <;> first | rfl | exact absurd (by simp [Spec.Personal]) h

/-- What is in the cache came from the proxy, for somebody. -/
structure Good (env : Env) (own : Nat) (st : Nat → Server) (now : Nat) (e : Entry) : Prop where
  past : e.at_ ≤ now
  real : ∃ u, e.reply = serve env (st e.at_) e.doc ⟨e.host, e.path, [], u⟩
  kept : keeps own e.reply = true

def Inv (env : Env) (own : Nat) (st : Nat → Server) (now : Nat) (c : Cache) : Prop :=
  ∀ e ∈ c, Good env own st now e

theorem Inv.mono {env : Env} {own : Nat} {st : Nat → Server} {t n : Nat} {c : Cache}
    (h : Inv env own st t c) (htn : t ≤ n) : Inv env own st n c :=
  fun e he => ⟨Nat.le_trans (h e he).past htn, (h e he).real, (h e he).kept⟩

theorem find_spec {c : Cache} {d : Doc} {r : Req} {e : Entry} (h : find c d r = some e) :
    e ∈ c ∧ e.doc = d ∧ e.host = r.host ∧ e.path = r.path := by
  unfold find at h
  have h1 := List.mem_of_find?_eq_some h
  have h2 := List.find?_some h
  unfold Entry.key at h2
  simp only [Bool.and_eq_true, decide_eq_true_eq] at h2
  exact ⟨h1, h2.1.1, h2.1.2, h2.2⟩

/-- Replies to documents about persons are kept only if they say nothing about caching. -/
theorem personal_kept {d : Doc} (hd : Spec.Personal d) (env : Env) (s : Server) (r : Req) (own : Nat)
    (h : keeps own (serve env s d r) = true) :
    own ≠ 0 ∧ (d ≠ .status → (serve env s d r).status = 405) := by
  have key : ∀ (x : Str ⊕ Fault), keeps own (plain .noStore x) = true →
      own ≠ 0 ∧ (plain .noStore x).status = 405 := by
    intro x hx
    cases x with
    | inl b => simp [plain, keeps] at hx
    | inr f => cases f <;> simp_all [plain, keeps, httpError, Fault.code]
  rcases hd with rfl | rfl | rfl | rfl
  · exact ⟨(key _ h).1, fun _ => (key _ h).2⟩
  · exact ⟨(key _ h).1, fun _ => (key _ h).2⟩
  · exact ⟨(key _ h).1, fun _ => (key _ h).2⟩
  · refine ⟨?_, fun hc => absurd rfl hc⟩
    rintro rfl
    simp only [serve] at h
    cases hx : s.statusPage r.user <;> simp [hx, plain, keeps, httpError] at h

/-- A confirmation concerns documents with an Etag, and these are the same for everybody. -/
theorem confirmed_impersonal {env : Env} {s : Server} {d : Doc} {r : Req}
    (h : (serve env s d r).status = 304) : ¬ Spec.Personal d := by
  intro hd
  rcases hd with rfl | rfl | rfl | rfl <;> exact absurd h (plain_shape _ _).2

/-- What happens when the cache asks: the proxy answers now, or confirms what the cache has. -/
theorem ask_spec {env : Env} {own : Nat} {st : Nat → Server} {now : Nat} {c : Cache} {d : Doc} {r : Req}
    {eo : Option Entry} (hn : Spec.NoCollisions env) (hi : Inv env own st now c)
    (he : ∀ e, eo = some e → e ∈ c ∧ e.doc = d ∧ e.host = r.host ∧ e.path = r.path) :
    (ask env own (st now) now c d r eo).1 = serve env (st now) d (Spec.bare r) ∧
      Inv env own st now (ask env own (st now) now c d r eo).2 := by
  have fresh : ∀ i, (serve env (st now) d { r with inm := i }).status ≠ 304 →
      serve env (st now) d { r with inm := i } = serve env (st now) d (Spec.bare r) ∧
      Inv env own st now
        (if keeps own (serve env (st now) d { r with inm := i }) then
          (⟨d, r.host, r.path, serve env (st now) d { r with inm := i }, now⟩ : Entry) :: c else c) := by
    intro i hs
    have h1 : serve env (st now) d { r with inm := i } = serve env (st now) d (Spec.bare r) :=
      unconditional hs
    refine ⟨h1, ?_⟩
    split
    · rename_i hk
      intro e hm
      rcases List.mem_cons.1 hm with rfl | hm
      · exact ⟨Nat.le_refl _, ⟨r.user, h1⟩, hk⟩
      · exact hi e hm
    · exact hi
  unfold ask
  dsimp only
  cases eo with
  | none =>
    have : (serve env (st now) d (upstream r none)).status ≠ 304 := bare_status env (st now) d r
    exact fresh _ this
  | some e =>
    dsimp only
    obtain ⟨hm, hd, hh, hp⟩ := he e rfl
    by_cases hs : (serve env (st now) d (upstream r (some e))).status = 304
    · rw [if_pos hs]
      have g := hi e hm
      obtain ⟨u, hu⟩ := g.real
      have hnp := confirmed_impersonal hs
      have hb : e.reply = serve env (st e.at_) d (Spec.bare r) := by
        rw [hu, hd]
        exact impersonal hnp env (st e.at_) (Spec.bare r) ⟨e.host, e.path, [], u⟩ hh hp rfl
      have hcur : serve env (st now) d (Spec.bare r) = e.reply := by
        rw [hb]
        cases ht : e.reply.etag with
        | none =>
          exfalso
          unfold upstream at hs
          simp only [Option.bind_some, ht, Option.getD_none] at hs
          exact bare_status env (st now) d r hs
        | some tag =>
          refine confirmed_current env hn _ _ d r tag (hb ▸ ht) ?_
          unfold upstream at hs
          simpa only [Option.bind_some, ht, Option.getD_some] using hs
      refine ⟨hcur.symm, ?_⟩
      intro e' hm'
      rcases List.mem_cons.1 hm' with rfl | hm'
      · refine ⟨Nat.le_refl _, ⟨u, ?_⟩, g.kept⟩
        dsimp only
        rw [← hcur, hd]
        exact (impersonal hnp env (st now) (Spec.bare r) ⟨e.host, e.path, [], u⟩ hh hp rfl).symm
      · exact hi e' hm'
    · rw [if_neg hs]
      exact fresh _ hs

theorem get_inv {env : Env} {own : Nat} {st : Nat → Server} {now : Nat} {c : Cache}
    (hn : Spec.NoCollisions env) (hi : Inv env own st now c) (d : Doc) (r : Req) :
    Inv env own st now (get env own (st now) now c d r).2 := by
  unfold get
  cases hf : find c d r with
  | none => exact (ask_spec (eo := none) hn hi (fun _ h => (nomatch h))).2
  | some e =>
    dsimp only
    split
    · exact hi
    · exact (ask_spec hn hi (fun e' h => by cases h; exact find_spec hf)).2

theorem visit_inv {env : Env} {own : Nat} {st : Nat → Server} (hn : Spec.NoCollisions env)
    (vs : List Visit) (t n : Nat) (c : Cache) (hi : Inv env own st t c) (ho : Spec.InOrder t vs n) :
    Inv env own st n (visit env own st c vs) := by
  induction vs generalizing t c with
  | nil => exact hi.mono ho
  | cons v vs ih => exact ih v.now _ (get_inv hn (hi.mono ho.1) v.doc v.req) ho.2

/-- What a client gets from the cache: what the cache kept and may still use, or the answer of now. -/
theorem get_cases {env : Env} {own : Nat} {st : Nat → Server} {now : Nat} {c : Cache}
    (hn : Spec.NoCollisions env) (hi : Inv env own st now c) (d : Doc) (r : Req) :
    (get env own (st now) now c d r).1 = serve env (st now) d (Spec.bare r) ∨
    ∃ e, Good env own st now e ∧ e.doc = d ∧ e.host = r.host ∧ e.path = r.path ∧
      now < e.at_ + lifetime own e.reply ∧ (get env own (st now) now c d r).1 = e.reply := by
  unfold get
  cases hf : find c d r with
  | none => exact .inl (ask_spec (eo := none) hn hi (fun _ h => (nomatch h))).1
  | some e =>
    dsimp only
    have hs := find_spec hf
    split
    · rename_i hl
      exact .inr ⟨e, hi e hs.1, hs.2.1, hs.2.2.1, hs.2.2.2, hl, rfl⟩
    · exact .inl (ask_spec hn hi (fun e' h => by cases h; exact hs)).1

theorem serve_control (env : Env) (s : Server) (d : Doc) (r : Req) :
    (∃ n, (serve env s d r).control = .pub (some n) ∧ n = Spec.age d) ∨
    (serve env s d r).control = .pub none ∨ (serve env s d r).control = .absent ∨
    (serve env s d r).control = .noStore := by
  have key : ∀ (c : Control) (x : Str ⊕ Fault), (plain c x).control = c ∨ (plain c x).control = .absent := by
    intro c x; cases x <;> simp [plain, httpError]
  have conf : ∀ c a b, (confirm env c a b r).control = c := by
    intro c a b; unfold confirm; split <;> rfl
  cases d with
  | ocsp =>
    rcases key (.pub (some 1800)) (s.ocsp r.path) with h | h
    · exact .inl ⟨1800, h, rfl⟩
    · exact .inr (.inr (.inl h))
  | sshCert => rcases key .noStore (s.sshCert r.user) with h | h <;> simp [serve, h]
  | token => rcases key .noStore (s.token r.user) with h | h <;> simp [serve, h]
  | userInfo => rcases key .noStore (s.userInfo r.user) with h | h <;> simp [serve, h]
  | status => rcases key .absent (s.statusPage r.user) with h | h <;> simp [serve, h]
  | caCert p =>
    cases h : s.ca with
    | none => simp [serve, h, httpError]
    | some ca => simp [serve, h, send, conf, Spec.age]
  | crl p =>
    cases h : s.crl p with
    | none => simp [serve, h, httpError, Spec.age]
    | some b => simp [serve, h, send, conf, Spec.age]
  | sshKey =>
    cases h : s.sshKey with
    | none => simp [serve, h, httpError]
    | some b => simp [serve, h, plain, Spec.age]
  | static =>
    cases h : s.static r.path with
    | none => simp [serve, h, httpError]
    | some f => simp [serve, h, conf]
  | _ => simp [serve, send, conf, Spec.age]

theorem lifetime_le (own : Nat) (env : Env) (s : Server) (d : Doc) (r : Req) :
    lifetime own (serve env s d r) ≤ max own (Spec.age d) := by
  unfold lifetime
  rcases serve_control env s d r with ⟨n, h, hn⟩ | h | h | h <;> rw [h] <;> dsimp only <;> omega

/-- C150 (partial: the cache keeps nothing that says nothing about caching, `own = 0`, or the document is the
same for everybody). Whatever was asked through a shared cache before, by whomever, while the proxy and its
documents change with time: what a client is given is what the proxy would have answered to this client's own
request, now or at most as long ago as the document says. -/
theorem through_cache_partial (env : Env) (hn : Spec.NoCollisions env) (own : Nat) (st : Nat → Server)
    (vs : List Visit) (now : Nat) (ho : Spec.InOrder 0 vs now) (d : Doc) (r : Req)
    (hd : own = 0 ∨ ¬ Spec.Personal d) :
    ∃ t, t ≤ now ∧ now ≤ t + max own (Spec.age d) ∧
      (get env own (st now) now (visit env own st [] vs) d r).1 = serve env (st t) d (Spec.bare r) := by
  have hi : Inv env own st now (visit env own st [] vs) :=
    visit_inv hn vs 0 now [] (fun _ h => nomatch h) ho
  rcases get_cases hn hi d r with h | ⟨e, g, rfl, hh, hp, hl, h⟩
  · exact ⟨now, Nat.le_refl _, by omega, h⟩
  · obtain ⟨u, hu⟩ := g.real
    have hnp : ¬ Spec.Personal e.doc := by
      rcases hd with h0 | h0
      · intro hc
        have := g.kept
        rw [hu] at this
        exact (personal_kept hc env _ _ own this).1 h0
      · exact h0
    refine ⟨e.at_, g.past, ?_, ?_⟩
    · rw [hu] at hl
      have := lifetime_le own env (st e.at_) e.doc ⟨e.host, e.path, [], u⟩
      omega
    · rw [h, hu]
      exact impersonal hnp env (st e.at_) (Spec.bare r) ⟨e.host, e.path, [], u⟩ hh hp rfl

/-- C150. Certificates for SSH, tokens and the information about a user are given to whom they were made for,
at once, whatever the cache does with replies that say nothing. -/
theorem personal_fresh (env : Env) (hn : Spec.NoCollisions env) (own : Nat) (st : Nat → Server)
    (vs : List Visit) (now : Nat) (ho : Spec.InOrder 0 vs now) (d : Doc) (r : Req)
    (hd : d = .sshCert ∨ d = .token ∨ d = .userInfo)
    (h200 : (get env own (st now) now (visit env own st [] vs) d r).1.status = 200) :
    (get env own (st now) now (visit env own st [] vs) d r).1 = serve env (st now) d (Spec.bare r) := by
  have hi : Inv env own st now (visit env own st [] vs) :=
    visit_inv hn vs 0 now [] (fun _ h => nomatch h) ho
  rcases get_cases hn hi d r with h | ⟨e, g, rfl, -, -, -, h⟩
  · exact h
  · exfalso
    obtain ⟨u, hu⟩ := g.real
    have hk := g.kept
    rw [hu] at hk
    have hp : Spec.Personal e.doc := by
      rcases hd with h | h | h <;> simp [Spec.Personal, h]
    have := (personal_kept hp env _ _ own hk).2 (by rcases hd with h | h | h <;> simp [h])
    rw [h, hu, this] at h200
    simp at h200

theorem kept_ok {d : Doc} (hd : ∀ p, d ≠ .crl p) (env : Env) (s : Server) (r : Req)
    (h : keeps 0 (serve env s d r) = true) : (serve env s d r).status < 400 := by
  have key : ∀ (c : Control) (x : Str ⊕ Fault), keeps 0 (plain c x) = true → (plain c x).status < 400 := by
    intro c x hx
    cases x with
    | inl b => simp [plain]
    | inr f => simp [plain, httpError, keeps] at hx
  have conf : ∀ c a b, (confirm env c a b r).status < 400 := by
    intro c a b; unfold confirm; split <;> simp
  cases d with
  | ocsp => exact key _ _ h
  | sshCert => exact key _ _ h
  | token => exact key _ _ h
  | userInfo => exact key _ _ h
  | status => exact key _ _ h
  | crl p => exact absurd rfl (hd p)
  | caCert p =>
    simp only [serve] at h ⊢
    cases hc : s.ca with
    | none => simp [hc, httpError, keeps] at h
    | some ca => simp only [send]; exact conf _ _ _
  | sshKey =>
    simp only [serve] at h ⊢
    cases hc : s.sshKey with
    | none => simp [hc, httpError, keeps] at h
    | some ca => simp [plain]
  | static =>
    simp only [serve] at h ⊢
    cases hc : s.static r.path with
    | none => simp [hc, httpError, keeps] at h
    | some ca => exact conf _ _ _
  | favicon => simp [serve]
  | _ => simp only [serve, send]; exact conf _ _ _

/-- C150 (partial: not for the revocation list, and for a cache that keeps nothing that says nothing). An
error that reaches a client is an error of now. -/
theorem errors_current_partial (env : Env) (hn : Spec.NoCollisions env) (st : Nat → Server)
    (vs : List Visit) (now : Nat) (ho : Spec.InOrder 0 vs now) (d : Doc) (r : Req)
    (hd : ∀ p, d ≠ .crl p)
    (he : 400 ≤ (get env 0 (st now) now (visit env 0 st [] vs) d r).1.status) :
    (get env 0 (st now) now (visit env 0 st [] vs) d r).1 = serve env (st now) d (Spec.bare r) := by
  have hi : Inv env 0 st now (visit env 0 st [] vs) :=
    visit_inv hn vs 0 now [] (fun _ h => nomatch h) ho
  rcases get_cases hn hi d r with h | ⟨e, g, rfl, -, -, -, h⟩
  · exact h
  · exfalso
    obtain ⟨u, hu⟩ := g.real
    have hk := g.kept
    rw [hu] at hk
    have := kept_ok hd env _ _ hk
    rw [h, hu] at he
    omega

/-- C150, the missing part for the revocation list: `ServeCRL` sets the header before it has a list. An error
that one client met, whatever its reason, is given to everybody else for half an hour, though the proxy has a
list again. -/
theorem crl_error_violated (env : Env) (own : Nat) (s0 s1 : Server) (pem : Bool) (t now : Nat)
    (r r' : Req) (h0 : s0.crl pem = none) (b : Str) (h1 : s1.crl pem = some b)
    (hh : r'.host = r.host) (hp : r'.path = r.path) (hnow : now < t + 1800) :
    (serve env s1 (.crl pem) (Spec.bare r')).body = b ∧
    (get env own s1 now (get env own s0 t [] (.crl pem) r).2 (.crl pem) r').1.status = 500 := by
  refine ⟨?_, ?_⟩
  · simp [serve, h1, send, confirm, Spec.bare, quoted]
  · have e1 : (get env own s0 t [] (.crl pem) r).2 =
        [⟨.crl pem, r.host, r.path, httpError (.pub (some 1800)) 500, t⟩] := by
      simp [get, find, ask, serve, h0, keeps, httpError]
    rw [e1]
    have e2 : find [(⟨.crl pem, r.host, r.path, httpError (.pub (some 1800)) 500, t⟩ : Entry)]
        (.crl pem) r' = some ⟨.crl pem, r.host, r.path, httpError (.pub (some 1800)) 500, t⟩ := by
      simp [find, Entry.key, hh, hp]
    unfold get
    rw [e2]
    dsimp only
    rw [if_pos (by simpa [lifetime, httpError] using hnow)]
    rfl

/-- C150, the missing part for personal pages: the page with the claims of the user says nothing about caching.
A shared cache that keeps such pages for any time of its own choosing, as RFC 9111 allows, shows it to the next
user. -/
theorem status_violated (env : Env) (own : Nat) (s : Server) (t now : Nat) (r r' : Req) (page : Str)
    (h0 : s.statusPage r.user = .inl page) (hh : r'.host = r.host) (hp : r'.path = r.path)
    (hown : t ≤ now ∧ now < t + own) :
    (get env own s now (get env own s t [] .status r).2 .status r').1 = ⟨200, .absent, none, page⟩ := by
  have e1 : (get env own s t [] .status r).2 =
      [⟨.status, r.host, r.path, ⟨200, .absent, none, page⟩, t⟩] := by
    have : own ≠ 0 := by omega
    simp [get, find, ask, serve, upstream, h0, plain, keeps, this]
  rw [e1]
  have e2 : find [(⟨.status, r.host, r.path, ⟨200, .absent, none, page⟩, t⟩ : Entry)]
      .status r' = some ⟨.status, r.host, r.path, ⟨200, .absent, none, page⟩, t⟩ := by
    simp [find, Entry.key, hh, hp]
  unfold get
  rw [e2]
  dsimp only
  rw [if_pos (by simpa [lifetime] using hown.2)]

/-! ## Whether what is kept is still good -/

/-- C150. An OCSP answer from a cache has not expired, if those the proxy makes are good for an hour. -/
theorem ocsp_in_date (env : Env) (hn : Spec.NoCollisions env) (own : Nat) (st : Nat → Server)
    (vs : List Visit) (now : Nat) (ho : Spec.InOrder 0 vs now) (r : Req) (next : Str → Nat)
    (hnext : ∀ t p b, (st t).ocsp p = .inl b → next b = t + 3600)
    (h200 : (get env own (st now) now (visit env own st [] vs) .ocsp r).1.status = 200) :
    now < next (get env own (st now) now (visit env own st [] vs) .ocsp r).1.body := by
  have hi : Inv env own st now (visit env own st [] vs) :=
    visit_inv hn vs 0 now [] (fun _ h => nomatch h) ho
  rcases get_cases hn hi .ocsp r with h | ⟨e, g, hd, -, -, hl, h⟩
  · rw [h] at h200 ⊢
    simp only [serve, Spec.bare] at h200 ⊢
    cases hx : (st now).ocsp r.path with
    | inl b =>
      simp only [plain]
      have := hnext _ _ _ hx
      omega
    | inr f =>
      have := fault_code f
      simp only [hx, plain, httpError] at h200
      omega
  · obtain ⟨u, hu⟩ := g.real
    rw [hd] at hu
    rw [h] at h200 ⊢
    rw [hu] at h200 hl ⊢
    simp only [serve] at h200 hl ⊢
    cases hx : (st e.at_).ocsp e.path with
    | inl b =>
      simp only [hx, plain, lifetime] at hl ⊢
      have := hnext _ _ _ hx
      omega
    | inr f =>
      have := fault_code f
      simp only [hx, plain, httpError] at h200
      omega

/-- C150. A revocation list from a cache is out of date by less than an hour: half an hour because the proxy
goes on to serve one that is out of date (C69), half an hour in the cache. -/
theorem crl_late_partial (env : Env) (hn : Spec.NoCollisions env) (own : Nat) (st : Nat → Server)
    (vs : List Visit) (now : Nat) (ho : Spec.InOrder 0 vs now) (pem : Bool) (r : Req) (next : Str → Nat)
    (hnext : ∀ t b, (st t).crl pem = some b → t < next b + 1800)
    (h200 : (get env own (st now) now (visit env own st [] vs) (.crl pem) r).1.status = 200) :
    now < next (get env own (st now) now (visit env own st [] vs) (.crl pem) r).1.body + 3600 := by
  have hi : Inv env own st now (visit env own st [] vs) :=
    visit_inv hn vs 0 now [] (fun _ h => nomatch h) ho
  rcases get_cases hn hi (.crl pem) r with h | ⟨e, g, hd, -, -, hl, h⟩
  · rw [h] at h200 ⊢
    simp only [serve, Spec.bare] at h200 ⊢
    cases hx : (st now).crl pem with
    | some b =>
      simp only [send, confirm, if_neg (quoted_ne env b)]
      have := hnext _ _ hx
      omega
    | none => simp [hx, httpError] at h200
  · obtain ⟨u, hu⟩ := g.real
    rw [hd] at hu
    rw [h] at h200 ⊢
    rw [hu] at h200 hl ⊢
    simp only [serve] at h200 hl ⊢
    cases hx : (st e.at_).crl pem with
    | some b =>
      simp only [hx, send, confirm, if_neg (quoted_ne env b), lifetime] at hl ⊢
      have := hnext _ _ hx
      omega
    | none => simp [hx, httpError] at h200

/-- C150. And it can be: a client is given a list almost an hour after it is out of date, and without the
certificates that were revoked in between. -/
theorem crl_late_violated (env : Env) (own : Nat) (s0 s1 : Server) (pem : Bool) (next : Str → Nat)
    (b : Str) (r r' : Req) (h0 : s0.crl pem = some b)
    (hh : r'.host = r.host) (hp : r'.path = r.path) :
    (get env own s1 (next b + 3598) (get env own s0 (next b + 1799) [] (.crl pem) r).2 (.crl pem) r').1.body
      = b := by
  have e1 : (get env own s0 (next b + 1799) [] (.crl pem) r).2 =
      [⟨.crl pem, r.host, r.path, ⟨200, .pub (some 1800), some (quoted env b), b⟩, next b + 1799⟩] := by
    simp [get, find, ask, serve, upstream, h0, send, confirm, quoted, keeps]
  rw [e1]
  have e2 : find [(⟨.crl pem, r.host, r.path, ⟨200, .pub (some 1800), some (quoted env b), b⟩,
      next b + 1799⟩ : Entry)] (.crl pem) r' =
      some ⟨.crl pem, r.host, r.path, ⟨200, .pub (some 1800), some (quoted env b), b⟩, next b + 1799⟩ := by
    simp [find, Entry.key, hh, hp]
  unfold get
  rw [e2]
  dsimp only
  rw [if_pos (by simp only [lifetime]; omega)]

/-! ## The keys of tokens -/

open Verif.Keys (Key State Alg TStep Later Hist createToken hour day groupKinds)

/-- Rotations and restarts of the proxy, all of them at `F` or later. -/
inductive Spec.Since (tpm : Bool) (G H F : Nat) : Nat × State → Nat × State → Prop
  | refl (p : Nat × State) : Spec.Since tpm G H F p p
  | step (p q r : Nat × State) : Spec.Since tpm G H F p q → TStep tpm G H q r → F ≤ r.1 →
      Spec.Since tpm G H F p r

theorem since_later {tpm : Bool} {G H F : Nat} {p q : Nat × State} (h : Spec.Since tpm G H F p q) :
    Later tpm G H p q := by
  induction h with
  | refl => exact .refl _
  | step q r _ hst _ ih => exact .step _ q r ih hst

/-- A rotation keeps all keys, or drops the first one, which is old. -/
def Kept (t : Nat) (old d : List Key) : Prop :=
  d = old ∨ ∃ y, old = y :: d ∧ y.created + 7 * day < t

theorem grown {tpm : Bool} {H : Nat} {e : Keys.Env} {s : State} (ok : Keys.EnvOk tpm H e) (hH : H ≤ day)
    (hsm : s.mem = s.stored ∨ s.mem = []) (hf : Keys.rotateFails e s = false) (hne : s.stored ≠ []) :
    ∃ d n, (Keys.rotate e s).mem = d ++ n ∧ Kept e.now s.stored d ∧ ∀ k ∈ n, e.now ≤ k.created + H := by
  obtain ⟨p, hp, hr⟩ := Keys.rotate_success ok hH hsm hf
  rw [hr]
  have hp1 : ∃ n, p.1 = s.stored ++ n ∧ ∀ k ∈ n, e.now ≤ k.created + H := by
    rcases Keys.grow_cases ok hH hp with ⟨h, -⟩ | ⟨_, g, -, -, hg, -, rfl⟩ | ⟨_, -, -, rfl⟩
    · exact absurd h hne
    · exact ⟨g, rfl, fun k hk => (hg.2 k hk).2⟩
    · exact ⟨[], by simp, by simp⟩
  obtain ⟨n, hn, hnew⟩ := hp1
  rcases Keys.expire_cases e.now p with h | ⟨k, h, ho⟩
  · exact ⟨s.stored, n, by rw [h, hn], .inl rfl, hnew⟩
  · rw [hn] at h
    obtain ⟨y, ys, hy⟩ := List.exists_cons_of_ne_nil hne
    rw [hy, List.cons_append, List.cons.injEq] at h
    exact ⟨ys, n, h.2.symm, .inr ⟨y, hy, h.1 ▸ ho⟩, hnew⟩

theorem stepped {tpm : Bool} {G H t t' : Nat} {s s' : State} (hH : H ≤ day) (hms : s.mem = s.stored)
    (hne : s.mem ≠ []) (h : TStep tpm G H (t, s) (t', s')) :
    ∃ d n, s'.mem = d ++ n ∧ Kept t' s.mem d ∧ ∀ k ∈ n, t' ≤ k.created + H := by
  cases h with
  | rotate e t s ok hfr hle hgap hf =>
    rw [hms]
    exact grown ok hH (.inl hms) hf (hms ▸ hne)
  | restart e t s s' ok hfr hle hgap hst =>
    unfold Keys.start at hst
    dsimp only at hst
    split at hst
    · exact absurd hst (by simp)
    · rename_i hf
      simp only [Option.some.injEq] at hst
      subst hst
      rw [hms]
      exact grown (s := { stored := s.stored, mem := [] }) ok hH (.inr rfl) (by simpa using hf) (hms ▸ hne)

theorem inv_ne {tpm : Bool} {G H t : Nat} {ks : List Key} (hi : Keys.Inv tpm G H t ks) : ks ≠ [] := by
  obtain ⟨pre, g, c, rfl, hk, -, -⟩ := hi.ends
  intro h
  exact Keys.group_ne_nil hk (List.append_eq_nil_iff.1 h).2

/-- Later key sets: the keys of before without some old ones, then new ones. -/
theorem since_shape {tpm : Bool} {G H F : Nat} {p q : Nat × State} (hH : 2 * H ≤ day)
    (hi : Keys.Inv tpm G H p.1 p.2.mem) (hms : p.2.mem = p.2.stored) (h : Spec.Since tpm G H F p q) :
    ∃ d n, q.2.mem = d ++ n ∧ (∀ k ∈ d, k ∈ p.2.mem) ∧
      (∀ k ∈ p.2.mem, k ∈ d ∨ k.created + 7 * day < q.1) ∧ ∀ k ∈ n, F ≤ k.created + H := by
  induction h with
  | refl => exact ⟨p.2.mem, [], by simp, fun _ h => h, fun _ h => .inl h, by simp⟩
  | step q r hl hst hF ih =>
    obtain ⟨d, n, he, hd, ho, hn⟩ := ih
    obtain ⟨i1, i2, -, -⟩ := Keys.later_inv hH (since_later hl) hi hms
    obtain ⟨-, -, hle, -⟩ := Keys.tstep_inv hH hst i1 i2
    obtain ⟨d1, n1, he1, hk, hn1⟩ := stepped (by omega) i2 (inv_ne i1) hst
    rw [he] at hk
    have hn1' : ∀ k ∈ n1, F ≤ k.created + H := fun k hk => by
      have := hn1 k hk
      omega
    have hold : ∀ k ∈ p.2.mem, k ∈ d ∨ k.created + 7 * day < r.1 := fun k hk => by
      rcases ho k hk with h | h
      · exact .inl h
      · exact .inr (by omega)
    have hnn : ∀ k ∈ n ++ n1, F ≤ k.created + H := fun k hk =>
      (List.mem_append.1 hk).elim (hn k) (hn1' k)
    rcases hk with rfl | ⟨y, hy, hyo⟩
    · exact ⟨d, n ++ n1, by rw [he1, List.append_assoc], hd, hold, hnn⟩
    · cases d with
      | nil =>
        rw [List.nil_append] at hy
        refine ⟨[], d1 ++ n1, he1, fun _ h => (nomatch h), hold, ?_⟩
        intro k hk
        rcases List.mem_append.1 hk with h | h
        · exact hn k (by rw [hy]; exact List.mem_cons_of_mem _ h)
        · exact hn1' k h
      | cons z zs =>
        rw [List.cons_append, List.cons.injEq] at hy
        refine ⟨zs, n ++ n1, by rw [he1, ← hy.2, List.append_assoc],
          fun k h => hd k (List.mem_cons_of_mem _ h), ?_, hnn⟩
        intro k hk
        rcases hold k hk with h | h
        · rcases List.mem_cons.1 h with rfl | h
          · exact .inr (hy.1 ▸ hyo)
          · exact .inl h
        · exact .inr h

/-- Every kind has a key in the last group. -/
theorem kind_in_group {tpm : Bool} {g : List Key} (h : g.map (·.kind) = groupKinds tpm) (K : Keys.Kind)
    (hK : K ∈ groupKinds tpm) : ∃ x ∈ g, x.kind = K := by
  rw [← h] at hK
  obtain ⟨x, hx, he⟩ := List.mem_map.1 hK
  exact ⟨x, hx, he⟩

/-- C150 (partial: successful rotations of the keys are at most `G` apart, with `G + 3 H` at most 122 hours; they
are attempted every hour). Someone who has a copy of the key set that is at most an hour old, as the document
allows, has the key of every token the proxy signs, whatever rotations and restarts happen in between. -/
theorem jwks_copy_good_partial (tpm : Bool) (G H : Nat) (hGH : G + 3 * H ≤ 122 * hour) (hH : H ≤ hour)
    (t0 : Nat) (s0 : State) (hh : Hist tpm G H t0 s0) (F : Nat) (hF : F ≤ t0 + G)
    (t : Nat) (s : State) (hl : Spec.Since tpm G H F (t0, s0) (t, s))
    (T : Nat) (htT : t ≤ T) (hT : T ≤ F + hour) (alg : Alg) (k : Key)
    (hsign : createToken tpm alg T s = .signed k) : k ∈ s0.mem := by
  have hH2 : 2 * H ≤ day := by unfold day hour at *; omega
  obtain ⟨hi, hms⟩ := Keys.hist_inv hH2 hh
  obtain ⟨d, n, he, hd, hkeep, hn⟩ := since_shape hH2 hi hms hl
  obtain ⟨hi', -, -, -⟩ := Keys.later_inv hH2 (since_later hl) hi hms
  dsimp only at he hd hi' hkeep
  unfold createToken at hsign
  cases hsel : Keys.select (alg.kind tpm) T s.mem with
  | none => rw [hsel] at hsign; simp at hsign
  | some k' =>
    rw [hsel] at hsign
    simp only [Keys.Sign.signed.injEq] at hsign
    subst hsign
    obtain ⟨hm, hk, hcase⟩ := Keys.select_spec _ _ _ _ hsel
    by_cases hkd : k' ∈ d
    · exact hd k' hkd
    · exfalso
      have hkn : k' ∈ n := by
        rw [he] at hm
        rcases List.mem_append.1 hm with h | h
        · exact absurd h hkd
        · exact h
      have hnew := hn k' hkn
      rcases hcase with ⟨hold, -⟩ | ⟨-, l, r, hlr, hfirst⟩
      · unfold hour at *
        omega
      · have hK : alg.kind tpm ∈ groupKinds tpm := hk ▸ hi'.kinds k' hm
        obtain ⟨pre, g, c, hpg, hgk, hc, ht⟩ := hi.ends
        obtain ⟨x, hxg, hxk⟩ := kind_in_group hgk _ hK
        have hx0 : x ∈ s0.mem := by rw [hpg]; exact List.mem_append_right _ hxg
        have hcx := hc x hxg
        have hxd : x ∈ d := by
          rcases hkeep x hx0 with h | h
          · exact h
          · exfalso
            unfold day hour at *
            omega
        -- the old key stands before the new one
        rw [he] at hlr
        rcases List.append_eq_append_iff.1 hlr with ⟨as, h1, -⟩ | ⟨bs, h1, h2⟩
        · exact hfirst x (by rw [h1]; exact List.mem_append_left _ hxd) hxk
        · cases bs with
          | nil =>
            rw [List.append_nil] at h1
            exact hfirst x (h1 ▸ hxd) hxk
          | cons b bs =>
            rw [List.cons_append, List.cons.injEq] at h2
            apply hkd
            rw [h1, h2.1]
            simp

/-- The hypotheses are met: a day after the start someone fetches the keys, the proxy then makes new ones, and
goes on to sign with the ones that were fetched. -/
example : ∃ t s, Hist false (100 * hour) hour 0 Keys.Ex.s0 ∧
    Spec.Since false (100 * hour) hour (24 * hour + 1800) (0, Keys.Ex.s0) (t, s) ∧
    s.mem ≠ Keys.Ex.s0.mem ∧
    createToken false .default (25 * hour) s = .signed ⟨2, .ed25519, 0⟩ := by
  refine ⟨25 * hour, Keys.Ex.s1, ?_, ?_, by decide, by decide⟩
  · exact ⟨Keys.Ex.env 0 0, Keys.Ex.s0, Keys.Ex.env_ok 0 0, Keys.Ex.fresh 0 0 _ (by simp), by decide, .refl _⟩
  · refine .step _ _ _ (.refl _) ?_ (by decide : 24 * hour + 1800 ≤ 25 * hour)
    exact .rotate (Keys.Ex.env 3 (25 * hour)) 0 Keys.Ex.s0 (Keys.Ex.env_ok _ _)
      (Keys.Ex.fresh 3 _ _ (by decide)) (by decide) (by decide) (by decide)

/-- C150, the missing part: if rotations fail for eight days (a full disk) and then one succeeds, the proxy makes
new keys, drops the oldest old key at once, and signs ES256 tokens with its successor, which nobody who fetched
the keys a minute ago has seen. -/
theorem jwks_copy_violated :
    ∃ (F t : Nat) (s0 s : State) (k : Key), Hist false (8 * day) hour 0 s0 ∧
      Spec.Since false (8 * day) hour F (0, s0) (t, s) ∧ t ≤ F + 60 ∧
      createToken false .es256 t s = .signed k ∧ k ∉ s0.mem := by
  refine ⟨8 * day - 60, 8 * day, Keys.Ex.s0, Keys.rotate (Keys.Ex.env 3 (8 * day)) Keys.Ex.s0,
    ⟨3, .ecdsa, 8 * day⟩, ?_, ?_, by decide, by decide, by decide⟩
  · exact ⟨Keys.Ex.env 0 0, Keys.Ex.s0, Keys.Ex.env_ok 0 0, Keys.Ex.fresh 0 0 _ (by simp), by decide, .refl _⟩
  · refine .step _ _ _ (.refl _) ?_ (by decide : 8 * day - 60 ≤ 8 * day)
    exact .rotate (Keys.Ex.env 3 (8 * day)) 0 Keys.Ex.s0 (Keys.Ex.env_ok _ _)
      (Keys.Ex.fresh 3 _ _ (by decide)) (by decide) (by decide) (by decide)

/-! ## The certificates of the authority -/

/-- Requests for revocation lists at some times, each with a key in case a new delegate is needed. -/
def Spec.delegates (ds : List Delegate) (reqs : List (Nat × Nat)) : List Delegate :=
  reqs.foldl (fun ds q => rotate q.1 q.2 ds) ds

theorem rotate_mem {now key : Nat} {ds : List Delegate} {d : Delegate} (h : d ∈ rotate now key ds) :
    d ∈ ds ∨ d = ⟨key, now⟩ := by
  cases ds with
  | nil => exact .inr (List.mem_singleton.1 h)
  | cons x xs =>
    simp only [rotate] at h
    split at h
    · simp only [List.take_succ_cons, List.take_zero, List.mem_cons, List.not_mem_nil, or_false] at h
      rcases h with h | h
      · exact .inr h
      · exact .inl (by simp [h])
    · exact .inl h

theorem delegates_mem {reqs : List (Nat × Nat)} {ds : List Delegate} {d : Delegate}
    (h : d ∈ Spec.delegates ds reqs) : d ∈ ds ∨ ∃ q ∈ reqs, d.made = q.1 := by
  unfold Spec.delegates at h
  induction reqs generalizing ds with
  | nil => exact .inl h
  | cons q qs ih =>
    rcases ih h with h | ⟨q', hq, hd⟩
    · rcases rotate_mem h with h | h
      · exact .inl h
      · exact .inr ⟨q, List.mem_cons_self, by rw [h]⟩
    · exact .inr ⟨q', List.mem_cons_of_mem _ hq, hd⟩

/-- C150 (partial: the delegate is at least a day old). Someone whose copy of the certificates is at most a day
old, as the document allows, has the certificate of the delegate that signs revocation lists. -/
theorem delegate_known_partial (F T : Nat) (ds : List Delegate) (reqs : List (Nat × Nat))
    (hreq : ∀ q ∈ reqs, F < q.1) (hT : T ≤ F + 86400) (d : Delegate)
    (hd : (Spec.delegates ds reqs).head? = some d) (hold : d.made + 86400 ≤ T) : d ∈ ds := by
  rcases delegates_mem (List.mem_of_head? hd) with h | ⟨q, hq, he⟩
  · exact h
  · have := hreq q hq
    omega

/-- The hypotheses are met by a delegate of three days and an older one. -/
example : (Spec.delegates [⟨2, 432001⟩, ⟨1, 0⟩] [(691201, 3), (691500, 4)]).head? = some ⟨2, 432001⟩ ∧
    (432001 + 86400 ≤ 691500) := by decide

/-- C150. During its first five days a delegate is the one that signs. -/
theorem delegate_stays (d : Delegate) (ds : List Delegate) (reqs : List (Nat × Nat))
    (hq : ∀ q ∈ reqs, q.1 ≤ d.made + 432000) : Spec.delegates (d :: ds) reqs = d :: ds := by
  unfold Spec.delegates
  induction reqs with
  | nil => rfl
  | cons q qs ih =>
    have h := hq q List.mem_cons_self
    rw [List.foldl_cons, rotate, if_neg (by omega)]
    exact ih fun x hx => hq x (List.mem_cons_of_mem _ hx)

/-- C150, the missing part: a new delegate signs at once. Whenever the delegate is more than five days old, the
next revocation list is signed by a new one that is in no copy of the certificates, though these may be used
for a day. -/
theorem delegate_violated (d : Delegate) (ds : List Delegate) (F key : Nat)
    (hF : d.made + 432000 ≤ F) (hkey : ∀ x ∈ d :: ds, x.key ≠ key) :
    ∃ new, (Spec.delegates (d :: ds) [(F + 1, key)]).head? = some new ∧ new ∉ d :: ds := by
  refine ⟨⟨key, F + 1⟩, ?_, fun h => hkey _ h rfl⟩
  simp only [Spec.delegates, List.foldl_cons, List.foldl_nil, rotate]
  rw [if_pos (by omega)]
  rfl

/-- C150. With PEM encoding everyone who reads the document block by block finds the certificate of the
authority, and then those of its delegates. -/
theorem ca_pem_complete (env : Env) (s : Server) (r : Req) (ca : Str × List Str) (hca : s.ca = some ca)
    (blocks : Str → List Str) (hnil : blocks [] = [])
    (hb : ∀ c rest, blocks (s.pem c ++ rest) = c :: blocks rest) :
    blocks (serve env s (.caCert true) (Spec.bare r)).body = ca.1 :: ca.2 := by
  have e : (serve env s (.caCert true) (Spec.bare r)).body = (ca.1 :: ca.2).flatMap s.pem := by
    simp [serve, hca, send, confirm, Spec.bare, quoted, caBody]
  rw [e]
  generalize ca.1 :: ca.2 = l
  induction l with
  | nil => simpa using hnil
  | cons c l ih => rw [List.flatMap_cons, hb, ih]

/-- A reader of one certificate: it accepts the certificates, but nothing behind them (RFC 5280, section
4.2.2.1: the document that a certificate names for its issuer is one certificate in DER). -/
structure Spec.Reader (parse : Str → Bool) (cert : Str → Prop) : Prop where
  accepts : ∀ c, cert c → parse c = true
  rejects : ∀ c x, cert c → x ≠ [] → parse (c ++ x) = false

/-- C150 (partial: there are no delegates yet). The document in DER is the certificate of the authority. -/
theorem ca_der_partial (env : Env) (s : Server) (r : Req) (c : Str) (hca : s.ca = some (c, []))
    (parse : Str → Bool) (cert : Str → Prop) (hp : Spec.Reader parse cert) (hc : cert c) :
    parse (serve env s (.caCert false) (Spec.bare r)).body = true := by
  have e : (serve env s (.caCert false) (Spec.bare r)).body = c := by
    simp [serve, hca, send, confirm, Spec.bare, quoted, caBody]
  rw [e]
  exact hp.accepts c hc

/-- C150, the missing part: from the first revocation list on there is a delegate, and the document is several
certificates in a row, which no reader of one certificate accepts. -/
theorem ca_der_violated (env : Env) (s : Server) (r : Req) (c d : Str) (ds : List Str)
    (hca : s.ca = some (c, d :: ds)) (parse : Str → Bool) (cert : Str → Prop)
    (hp : Spec.Reader parse cert) (hc : cert c) (hd : d ≠ []) :
    parse (serve env s (.caCert false) (Spec.bare r)).body = false := by
  have e : (serve env s (.caCert false) (Spec.bare r)).body = c ++ (d ++ ds.flatten) := by
    simp [serve, hca, send, confirm, Spec.bare, quoted, caBody]
  rw [e]
  exact hp.rejects c _ hc (by simp [hd])

/-! ## Examples -/

namespace Ex

def env : Env := ⟨id, fun _ x => x⟩

/-- At time `t` the list says the time in tally marks, and every user has a page of their own. -/
def st (t : Nat) : Server where
  style := "body".toList
  script := "go()".toList
  favicon := []
  wellKnown := id
  jwks := "keys".toList
  discovery := []
  ca := some ("CA".toList, [])
  pem := id
  crl _ := if t < 10 then none else some (List.replicate (t / 3600) 'I')
  ocsp p := .inl p
  sshKey := none
  sshCert u := .inl u
  token u := .inl u
  userInfo u := .inl u
  static _ := none
  statusPage u := .inl u

def req (u : Char) : Req := ⟨"ca".toList, "/x".toList, [], [u]⟩

theorem noCollisions : Spec.NoCollisions env := fun _ _ h => h

/-- Two clients and a cache: the second gets the list that the first caused the cache to fetch, then, two hours
later, a new one. -/
example : Spec.InOrder 0 [⟨3600, .crl false, req 'a'⟩] 4000 ∧
    (get env 0 (st 4000) 4000 (visit env 0 st [] [⟨3600, .crl false, req 'a'⟩]) (.crl false) (req 'b')).1 =
      serve env (st 3600) (.crl false) (req 'b') ∧
    (get env 0 (st 9000) 9000 (visit env 0 st [] [⟨3600, .crl false, req 'a'⟩]) (.crl false) (req 'b')).1 =
      serve env (st 9000) (.crl false) (req 'b') ∧
    serve env (st 9000) (.crl false) (req 'b') ≠ serve env (st 3600) (.crl false) (req 'b') :=
  ⟨⟨by decide, (by decide : 3600 ≤ 4000)⟩, by decide +kernel, by decide +kernel, by decide +kernel⟩

/-- A confirmation, after the cache asked again with the Etag. -/
example : (serve env (st 99) .style (Spec.bare (req 'a'))).etag = some "\"body\"".toList ∧
    (serve env (st 100) .style { req 'a' with inm := "\"body\"".toList }).status = 304 := by
  decide +kernel

/-- An error of the revocation list, kept by the cache. -/
example : (st 5).crl false = none ∧ ((st 1000).crl false).isSome ∧
    (get env 0 (st 1000) 1000 (get env 0 (st 5) 5 [] (.crl false) (req 'a')).2 (.crl false) (req 'b')).1.status
      = 500 := by decide +kernel

/-- The page of one user, shown to another. -/
example : (get env 60 (st 50) 50 (get env 60 (st 5) 5 [] .status (req 'a')).2 .status (req 'b')).1.body
    = ['a'] := by decide +kernel

/-- A certificate for SSH is not. -/
example : (get env 60 (st 50) 50 (get env 60 (st 5) 5 [] .sshCert (req 'a')).2 .sshCert (req 'b')).1.body
    = ['b'] := by decide +kernel

end Ex

end Verif.Caching
