import Verif.Model.Ceremony
import Verif.Props.Passkey
/-
C129: requests made by other sites do nothing in the passkey ceremonies.
C130: the answers of the passkey pages are true.
C131: the page for managing passkeys can be reached.
C132: allowed users can register a passkey and log in with it.
-/
namespace Verif.Ceremony

open Verif.Passkey (Claims Key User Db State AttReq AsrtReq Commit Event Op Page)

/-! ## C129 -/

/-- A request that a browser sends only for a script of the page itself: other sites can neither read the answer nor
set this header (without the consent that `OPTIONS` requests ask for, which the proxy never gives). -/
def Spec.Own (r : Req) : Prop := r.method = "POST".toList ∧ r.csrf = "1".toList

instance (r : Req) : Decidable (Spec.Own r) := inferInstanceAs (Decidable (_ ∧ _))

/-- Answers that come with a change of the passkeys, of what the browser is logged in as, or with a challenge. -/
def Spec.Active : Resp → Prop
  | .assertion .. | .attestation .. | .refresh .. | .done .. | .switched _ | .ok => True
  | _ => False

/-- Answers without buttons. -/
def Bare : Resp → Prop
  | .loginPage .. | .keysPage .. | .panic => False
  | _ => True

theorem bare_allow (db : Db) (e : Str) : Bare (allowList db e) := by
  unfold allowList; split <;> trivial

theorem bare_att (x : Site) (c : Claims) (s s' : State) : Bare (attAnswer x c s s') := by
  unfold attAnswer; split <;> trivial

theorem bare_check (x : Site) (r : Req) (u : Url) (s s' : State) : Bare (checkAnswer x r u s s') := by
  unfold checkAnswer
  split
  · split
    · trivial
    · split <;> trivial
  · trivial

theorem bare_add (u : Url) (s s' : State) : Bare (addAnswer u s s') := by
  unfold addAnswer
  split
  · split <;> trivial
  · trivial

theorem bare_manage (r : Req) (s s' : State) : Bare (manageAnswer r s s') := by
  unfold manageAnswer
  split
  · split <;> trivial
  · trivial

/-- What holds of a plan. -/
structure Fine (r : Req) (p : Plan) : Prop where
  ops : p.ops ≠ [] → Spec.Own r
  act : ∀ f, p = .reply f → ∀ s, Spec.Active (f s) → Spec.Own r
  frame1 : ∀ f, p = .reply f → ∀ s m e u a g b, f s = .loginPage m e u a g b → b = true
  frame2 : ∀ f, p = .reply f → ∀ s e k c b, f s = .keysPage e k c b → b = true
  bare : ∀ v o a, p = .call v o a → ∀ s s', Bare (a s s')

theorem fine_guarded {r : Req} {p : Plan} (h : Spec.Own r → Fine r p) : Fine r (guarded r p) := by
  unfold guarded
  split
  · refine ⟨fun h => absurd rfl h, ?_, ?_, ?_, fun _ _ _ h => nomatch h⟩
    · rintro f ⟨⟩ s h; exact h.elim
    · rintro f ⟨⟩ s m e u a g b h; cases h
    · rintro f ⟨⟩ s e k c b h; cases h
  · rename_i h1
    split
    · refine ⟨fun h => absurd rfl h, ?_, ?_, ?_, fun _ _ _ h => nomatch h⟩
      · rintro f ⟨⟩ s h; exact h.elim
      · rintro f ⟨⟩ s m e u a g b h; cases h
      · rintro f ⟨⟩ s e k c b h; cases h
    · rename_i h2
      exact h ⟨Decidable.not_not.1 h1, Decidable.not_not.1 h2⟩

theorem fine_call {r : Req} (h : Spec.Own r) (v : Option Nat) (o : Op) (a : State → State → Resp)
    (ha : ∀ s s', Bare (a s s')) : Fine r (.call v o a) := by
  refine ⟨fun _ => h, ?_, ?_, ?_, ?_⟩
  · intro f hf; cases hf
  · intro f hf; cases hf
  · intro f hf; cases hf
  · rintro _ _ _ ⟨⟩; exact ha

/-- An answer that is none of the special ones. -/
def Plain : Resp → Prop
  | .assertion .. | .attestation .. | .refresh .. | .done .. | .switched _ | .ok | .loginPage .. | .keysPage .. => False
  | _ => True

theorem fine_reply {r : Req} (x : Resp) (h : Plain x) : Fine r (.reply fun _ => x) := by
  refine ⟨fun h => absurd rfl h, ?_, ?_, ?_, fun _ _ _ h => nomatch h⟩
  · rintro f ⟨⟩ s ha
    cases x <;> first | exact ha.elim | exact h.elim
  · rintro f ⟨⟩ s m e u a g b rfl; exact h.elim
  · rintro f ⟨⟩ s e k c b rfl; exact h.elim

theorem fine_loginPage {x : Site} {r : Req} {u : Url} {email : Option Str} : Fine r (loginPage x r u email) := by
  unfold loginPage
  split
  · split
    · exact fine_reply _ trivial
    · refine ⟨fun h => absurd rfl h, ?_, ?_, ?_, fun _ _ _ h => nomatch h⟩
      · rintro f ⟨⟩ s ha; exact ha.elim
      · rintro f ⟨⟩ s m e u a g b h; cases h; rfl
      · rintro f ⟨⟩ s e k c b h; cases h
  · refine ⟨fun h => absurd rfl h, ?_, ?_, ?_, fun _ _ _ h => nomatch h⟩
    · rintro f ⟨⟩ s ha; exact ha.elim
    · rintro f ⟨⟩ s m e u a g b h; cases h; rfl
    · rintro f ⟨⟩ s e k c b h; cases h

theorem fine_callbackModes {x : Site} {r : Req} {u : Url} {email : Option Str} : Fine r (callbackModes x r u email) := by
  unfold callbackModes
  split
  · exact fine_loginPage
  split
  · exact fine_guarded fun h => fine_call h _ _ _ fun _ _ => bare_allow _ _
  split
  · refine fine_guarded fun h => ?_
    split
    · exact fine_reply _ trivial
    · exact fine_call h _ _ _ fun _ _ => bare_att ..
  split
  · refine fine_guarded fun h => ?_
    split
    · exact fine_call h _ _ _ fun _ _ => trivial
    · exact fine_call h _ _ _ fun _ _ => bare_check ..
  split
  · refine fine_guarded fun h => ?_
    split
    · exact fine_reply _ trivial
    · split
      · exact fine_reply _ trivial
      · split
        · exact fine_call h _ _ _ fun _ _ => trivial
        · exact fine_call h _ _ _ fun _ _ => bare_add ..
  split
  · refine fine_guarded fun h => ⟨fun h => absurd rfl h, ?_, ?_, ?_, fun _ _ _ h => nomatch h⟩
    · rintro f ⟨⟩ s _; exact h
    · rintro f ⟨⟩ s m e u a g b h; cases h
    · rintro f ⟨⟩ s e k c b h; cases h
  · exact fine_reply _ trivial

theorem fine_plan (x : Site) (h : Handler) (r : Req) : Fine r (plan x h r) := by
  cases h with
  | callback =>
    show Fine r (callback x r)
    unfold callback
    split
    · split <;> exact fine_reply _ trivial
    · split
      · exact fine_reply _ trivial
      split
      · exact fine_reply _ trivial
      split
      · exact fine_reply _ trivial
      · unfold withoutCookie
        split
        · split
          · exact fine_reply _ trivial
          split
          · exact fine_reply _ trivial
          split
          · exact fine_reply _ trivial
          · exact fine_callbackModes
        · exact fine_callbackModes
  | manage =>
    show Fine r (manage x r)
    unfold manage
    split
    · exact fine_reply _ trivial
    split
    · exact fine_reply _ trivial
    split
    · exact fine_reply _ trivial
    split
    · exact fine_reply _ trivial
    · unfold manageModes
      split
      · exact fine_guarded fun h => fine_call h _ _ _ fun _ _ => bare_att ..
      split
      · refine fine_guarded fun h => ?_
        split
        · exact fine_call h _ _ _ fun _ _ => trivial
        · exact fine_call h _ _ _ fun _ _ => bare_manage ..
      split
      · refine fine_guarded fun h => ?_
        split
        · exact fine_reply _ trivial
        · split
          · exact fine_reply _ trivial
          · exact fine_call h _ _ _ fun _ _ => trivial
      split
      · exact fine_reply _ trivial
      split
      · refine ⟨fun h => absurd rfl h, ?_, ?_, ?_, fun _ _ _ h => nomatch h⟩
        · rintro f ⟨⟩ s ha; exact ha.elim
        · rintro f ⟨⟩ s m e u a g b h; cases h
        · rintro f ⟨⟩ s e k c b h; cases h; rfl
      · exact fine_reply _ trivial

/-- C129. A request that another site makes the browser send (without the header) runs no step of any ceremony: no
challenge, no key, no deletion, no login, whichever way its steps would be interleaved with those of other requests. -/
theorem forged_no_steps (x : Site) (h : Handler) (r : Req) (hr : ¬ Spec.Own r) : (plan x h r).ops = [] := by
  by_cases ho : (plan x h r).ops = []
  · exact ho
  · exact absurd ((fine_plan x h r).ops ho) hr

/-- C129. Nor does it get an answer that logs the browser in or out, or that says something was done. -/
theorem forged_harmless (x : Site) (s : State) (h : Handler) (r : Req) (hr : ¬ Spec.Own r) :
    (serve x s h r).1 = s ∧ ¬ Spec.Active (serve x s h r).2 := by
  have hf := fine_plan x h r
  unfold serve
  cases hp : plan x h r with
  | reply f => exact ⟨rfl, fun ha => hr (hf.act f hp s ha)⟩
  | call v o a =>
    exfalso
    refine hr (hf.ops ?_)
    rw [hp]
    cases v <;> exact fun h => nomatch h

/-- Requests one after the other. -/
def Spec.serveAll (x : Site) : List (Handler × Req) → State → State
  | [], s => s
  | q :: qs, s => Spec.serveAll x qs (serve x s q.1 q.2).1

/-- C129 (histories). Whatever other sites make browsers send, at any time, accounts, keys and challenges are the same
as without those requests. -/
theorem forged_ignored (x : Site) (qs : List (Handler × Req)) (s : State) :
    Spec.serveAll x qs s = Spec.serveAll x (qs.filter fun q => decide (Spec.Own q.2)) s := by
  induction qs generalizing s with
  | nil => rfl
  | cons q qs ih =>
    by_cases hq : Spec.Own q.2
    · rw [List.filter_cons_of_pos (by simpa using hq)]
      exact ih _
    · rw [List.filter_cons_of_neg (by simpa using hq)]
      show Spec.serveAll x qs (serve x s q.1 q.2).1 = _
      rw [(forged_harmless x s q.1 q.2 hq).1]
      exact ih s

/-- C129 (frames). No page with buttons can be put into a frame of another site. -/
theorem pages_unframed (x : Site) (s : State) (h : Handler) (r : Req) :
    (∀ m e u a g b, (serve x s h r).2 = .loginPage m e u a g b → b = true) ∧
    (∀ e k c b, (serve x s h r).2 = .keysPage e k c b → b = true) := by
  have hf := fine_plan x h r
  cases hp : plan x h r with
  | reply f =>
    have hs : (serve x s h r).2 = f s := by unfold serve; rw [hp]
    rw [hs]
    exact ⟨hf.frame1 f hp s, hf.frame2 f hp s⟩
  | call v o a =>
    have hb : Bare (serve x s h r).2 := by
      unfold serve
      rw [hp]
      cases v <;> exact hf.bare _ _ _ hp _ _
    constructor
    · intro m e u a g b hh
      rw [hh] at hb; exact hb.elim
    · intro e k c b hh
      rw [hh] at hb; exact hb.elim

/-! ## What requests run -/

/-- Answers that are given without running anything, and are not a failure of the program. -/
def Idle : Resp → Prop
  | .assertion .. | .attestation .. | .refresh .. | .done .. | .ok | .panic => False
  | _ => True

/-- What a request can lead to. -/
inductive Shape (x : Site) (r : Req) : Handler → Plan → Prop
  | reply (h : Handler) (f : State → Resp) (hf : ∀ s, Idle (f s))
      (hs : ∀ s u, f s = .switched u → (∃ m, r.tok = some (u, m)) ∧ r.get = "Switch".toList)
      (hl : ∀ s host, f s = .elsewhere host → epHost x.ep r.host ≠ r.host) : Shape x r h (.reply f)
  | junk (h : Handler) : Shape x r h (.call none (.vacuum r.t0) fun _ _ => .error 500)
  | asrtOptions (u : Url) (m : Option Str) (ht : r.tok = some (u, m)) (hg : r.get = "AssertionOptions".toList) :
      Shape x r .callback (.call (some r.t0) (.asrtOptions r.now r.chal) fun s _ => allowList s.db r.loginId)
  | attOptions (u : Url) (m : Option Str) (c : Claims) (ht : r.tok = some (u, m)) (hc : r.cookie = some c)
      (hg : r.get = "AttestationOptions".toList) :
      Shape x r .callback (.call (some r.t0) (.attOptions .first r.now r.now c r.host r.chal r.uid) (attAnswer x c))
  | check (u : Url) (m : Option Str) (a : AsrtReq) (ht : r.tok = some (u, m)) (ha : r.asrt = some a)
      (hg : r.get = "Check".toList) :
      Shape x r .callback (.call (some r.t0) (.assert r.now r.t0 r.cookie a r.store) (checkAnswer x r u))
  | add (u : Url) (m : Option Str) (c : Claims) (a : AttReq) (ht : r.tok = some (u, m)) (hc : r.cookie = some c)
      (hal : x.allowed (c.email.getD []) = true) (ha : r.att = some a) (hg : r.get = "AddKey".toList) :
      Shape x r .callback (.call (some r.t0) (.attest .first r.now r.t0 c r.host a r.store) (addAnswer u))
  | manageOptions (c : Claims) (hc : r.ctx = some c) (hm : Passkey.manageOk x.cfg r.host c r.now = true) (hg : r.get = "AttestationOptions".toList) :
      Shape x r .manage (.call (some r.t0) (.attOptions .manage r.now r.now c r.host r.chal r.uid) (attAnswer x c))
  | manageAdd (c : Claims) (a : AttReq) (hc : r.ctx = some c) (hm : Passkey.manageOk x.cfg r.host c r.now = true)
      (ha : r.att = some a) (hg : r.get = "AddKey".toList) :
      Shape x r .manage (.call (some r.t0) (.attest .manage r.now r.t0 c r.host a r.store) (manageAnswer r))
  | manageDelete (c : Claims) (id : Nat) (hc : r.ctx = some c) (hm : Passkey.manageOk x.cfg r.host c r.now = true)
      (hi : r.id = some id) (hk : c.passkey ≠ some id) (hg : r.get = "DeleteKey".toList) :
      Shape x r .manage (.call none (.delete r.now c r.host id r.store) fun _ _ => .ok)

theorem shape_idle {x : Site} {r : Req} {h : Handler} (a : Resp) (ha : Idle a) (hs : ∀ u, a ≠ .switched u)
    (hl : ∀ u, a ≠ .elsewhere u) : Shape x r h (.reply fun _ => a) :=
  .reply h _ (fun _ => ha) (fun _ u hu => absurd hu (hs u)) fun _ u hu => absurd hu (hl u)

theorem shape_guarded {x : Site} {r : Req} {h : Handler} {p : Plan} (hp : Shape x r h p) :
    Shape x r h (guarded r p) := by
  unfold guarded
  split
  · exact shape_idle _ trivial (fun _ h => nomatch h) fun _ h => nomatch h
  split
  · exact shape_idle _ trivial (fun _ h => nomatch h) fun _ h => nomatch h
  · exact hp

/-- Modes of the callback that need a login at the other provider. -/
def NeedsCookie (g : Str) : Prop :=
  g = "RefreshID".toList ∨ g = "RegisterNewID".toList ∨ g = "AttestationOptions".toList ∨ g = "AddKey".toList

theorem shape_modes {x : Site} {r : Req} {u : Url} {m : Option Str} (ht : r.tok = some (u, m))
    (hc : NeedsCookie r.get → r.cookie ≠ none) : Shape x r .callback (callbackModes x r u m) := by
  unfold callbackModes
  split
  · unfold loginPage
    split
    · rename_i hg
      split
      · rename_i hn
        exact absurd hn (hc (by rcases hg with h | h <;> simp [NeedsCookie, h]))
      · exact .reply _ _ (fun _ => trivial) (fun _ _ h => nomatch h) fun _ _ h => nomatch h
    · exact .reply _ _ (fun _ => trivial) (fun _ _ h => nomatch h) fun _ _ h => nomatch h
  split
  · rename_i hg
    exact shape_guarded (.asrtOptions u m ht hg)
  split
  · rename_i hg
    refine shape_guarded ?_
    split
    · rename_i hn
      exact absurd hn (hc (.inr (.inr (.inl hg))))
    · rename_i c hk
      exact .attOptions u m c ht hk hg
  split
  · rename_i hg
    refine shape_guarded ?_
    split
    · exact .junk _
    · rename_i a ha
      exact .check u m a ht ha hg
  split
  · rename_i hg
    refine shape_guarded ?_
    split
    · rename_i hn
      exact absurd hn (hc (.inr (.inr (.inr hg))))
    · rename_i c hk
      split
      · exact shape_idle _ trivial (fun _ h => nomatch h) fun _ h => nomatch h
      · rename_i hal
        split
        · exact .junk _
        · rename_i a ha
          exact .add u m c a ht hk (by simpa using hal) ha hg
  split
  · rename_i hg
    refine shape_guarded (.reply _ _ (fun _ => trivial) (fun _ _ h => ?_) fun _ _ h => nomatch h)
    cases h
    exact ⟨⟨m, ht⟩, hg⟩
  · exact shape_idle _ trivial (fun _ h => nomatch h) fun _ h => nomatch h

theorem shape (x : Site) (h : Handler) (r : Req) : Shape x r h (plan x h r) := by
  cases h with
  | callback =>
    show Shape x r _ (callback x r)
    unfold callback
    split
    · split <;> exact shape_idle _ trivial (fun _ h => nomatch h) fun _ h => nomatch h
    · split
      · exact shape_idle _ trivial (fun _ h => nomatch h) fun _ h => nomatch h
      split
      · exact shape_idle _ trivial (fun _ h => nomatch h) fun _ h => nomatch h
      split
      · exact shape_idle _ trivial (fun _ h => nomatch h) fun _ h => nomatch h
      · rename_i u m ht
        unfold withoutCookie
        split
        · split
          · exact shape_idle _ trivial (fun _ h => nomatch h) fun _ h => nomatch h
          rename_i h1
          split
          · exact shape_idle _ trivial (fun _ h => nomatch h) fun _ h => nomatch h
          rename_i h2
          split
          · exact shape_idle _ trivial (fun _ h => nomatch h) fun _ h => nomatch h
          rename_i h3
          refine shape_modes ht fun hn => ?_
          rcases hn with h | h | h | h
          · exact absurd h h1
          · exact absurd h h2
          · exact absurd (.inl h) h3
          · exact absurd (.inr h) h3
        · rename_i hc
          exact shape_modes ht fun _ => hc
  | manage =>
    show Shape x r _ (manage x r)
    unfold manage
    split
    · rename_i hne
      exact .reply _ _ (fun _ => trivial) (fun _ _ h => nomatch h) fun _ _ _ => hne
    rename_i hep
    split
    · exact shape_idle _ trivial (fun _ h => nomatch h) fun _ h => nomatch h
    rename_i c hc
    split
    · exact shape_idle _ trivial (fun _ h => nomatch h) fun _ h => nomatch h
    rename_i hre
    split
    · exact shape_idle _ trivial (fun _ h => nomatch h) fun _ h => nomatch h
    · rename_i pk hpk
      have hm : Passkey.manageOk x.cfg r.host c r.now = true := by
        have hre : recentHere x r c = true := by simpa using hre
        unfold recentHere at hre
        unfold Passkey.manageOk
        rw [hpk, Bool.and_assoc (decide _), show (decide (x.cfg.epHost r.host = r.host)) = true from
          decide_eq_true (Decidable.not_not.1 hep), Bool.true_and]
        exact Bool.and_eq_true_iff.2 ⟨hre, rfl⟩
      unfold manageModes
      split
      · rename_i hg
        exact shape_guarded (.manageOptions c hc hm hg)
      split
      · rename_i hg
        refine shape_guarded ?_
        split
        · exact .junk _
        · rename_i a ha
          exact .manageAdd c a hc hm ha hg
      split
      · rename_i hg
        refine shape_guarded ?_
        split
        · exact shape_idle _ trivial (fun _ h => nomatch h) fun _ h => nomatch h
        · rename_i id hi
          split
          · exact shape_idle _ trivial (fun _ h => nomatch h) fun _ h => nomatch h
          · rename_i hne
            exact .manageDelete c id hc hm hi (by rw [hpk]; exact fun h => hne (Option.some.inj h)) hg
      split
      · exact shape_idle _ trivial (fun _ h => nomatch h) fun _ h => nomatch h
      split
      · exact .reply _ _ (fun _ => trivial) (fun _ _ h => nomatch h) fun _ _ h => nomatch h
      · exact shape_idle _ trivial (fun _ h => nomatch h) fun _ h => nomatch h

/-! ## C130 -/

/-- C130 (no crash). No request makes the program use a login that is not there. -/
theorem no_panic (x : Site) (s : State) (h : Handler) (r : Req) : (serve x s h r).2 ≠ .panic := by
  have hs := shape x h r
  have hb := (fine_plan x h r).bare
  unfold serve
  revert hs hb
  generalize plan x h r = p
  intro hs hb
  have key : ∀ v o a, p = .call v o a → ∀ t t', a t t' ≠ .panic := by
    intro v o a hp t t' he
    have := hb v o a hp t t'
    rw [he] at this
    exact this
  cases p with
  | reply f =>
    cases hs with
    | reply _ _ hf _ _ =>
      intro he
      have := hf s
      have he : f s = .panic := he
      rw [he] at this
      exact this
  | call v o a =>
    cases v <;> exact key _ _ _ rfl _ _

/-- What one step of the ceremonies can add to the log. -/
theorem step_log (cfg : Passkey.Cfg) (s : State) (o : Op) :
    (Passkey.step cfg s o).log = s.log ∨
    (∃ c cl t, (Passkey.step cfg s o).log = .issued c cl t :: s.log ∧
      ((∃ t c, o = .asrtOptions t c) ∨ ∃ p n t c h x u, o = .attOptions p n t c h x u)) ∨
    (∃ page now t0 c host req st e h k ck, (Passkey.step cfg s o).log = .added page e h k c host req t0 now ck :: s.log ∧
      o = .attest page now t0 c host req st) ∨
    (∃ now t0 token req st h k c, o = .assert now t0 token req st ∧
      (Passkey.step cfg s o).log =
        .login h k c req t0 now (Passkey.recent cfg c now && Passkey.cookieOk c) :: s.log) := by
  have hcl : ∀ (s : State) st db, (Passkey.commit s st db).log = s.log := by
    intro s st db
    unfold Passkey.commit
    split <;> rfl
  have hatt : ∀ page now t0 c host req st,
      (Passkey.attest cfg s page now t0 c host req st).log = s.log ∨
      ∃ e h k ck, (Passkey.attest cfg s page now t0 c host req st).log = .added page e h k c host req t0 now ck :: s.log := by
    intro page now t0 c host req st
    have hends := Passkey.attest_ends cfg s page now t0 c host req st
    revert hends
    generalize Passkey.attest cfg s page now t0 c host req st = s'
    intro hends
    cases hends with
    | same => exact .inl rfl
    | consumed => exact .inl rfl
    | full => exact .inl rfl
    | done => exact .inr ⟨_, _, _, _, rfl⟩
  cases o with
  | vacuum => exact .inl rfl
  | reload => exact .inl rfl
  | restart => exact .inl rfl
  | attOptions page now t claims host chal uid =>
    dsimp only [Passkey.step]
    split
    · exact .inl rfl
    unfold Passkey.attOptions
    cases claims.email with
    | none => exact .inl rfl
    | some e =>
      dsimp only
      cases Passkey.attUid s.db e uid with
      | none => exact .inl rfl
      | some u => exact .inr (.inl ⟨_, _, _, rfl, .inr ⟨_, _, _, _, _, _, _, rfl⟩⟩)
  | asrtOptions => exact .inr (.inl ⟨_, _, _, rfl, .inl ⟨_, _, rfl⟩⟩)
  | attest page now t0 c host req st =>
    cases page with
    | first =>
      dsimp only [Passkey.step]
      split
      · exact .inl rfl
      · rcases hatt .first now t0 c host req st with h | ⟨e, h, k, ck, hl⟩
        · exact .inl h
        · exact .inr (.inr (.inl ⟨_, _, _, _, _, _, _, e, h, k, ck, hl, rfl⟩))
    | manage =>
      dsimp only [Passkey.step]
      split
      · exact .inl rfl
      · rcases hatt .manage now t0 c host req st with h | ⟨e, h, k, ck, hl⟩
        · exact .inl h
        · exact .inr (.inr (.inl ⟨_, _, _, _, _, _, _, e, h, k, ck, hl, rfl⟩))
  | assert now t0 token req st =>
    have hends := Passkey.assert_ends cfg s now t0 token req st
    dsimp only [Passkey.step]
    revert hends
    generalize Passkey.assert cfg s now t0 token req st = s'
    intro hends
    cases hends with
    | same => exact .inl rfl
    | consumed => exact .inl rfl
    | refused => exact .inl rfl
    | failed h0 u0 k hu0 hc => exact .inl (hcl ..)
    | done ch h0 u0 k => exact .inr (.inr (.inr ⟨_, _, _, _, _, _, _, _, rfl, rfl⟩))
  | delete now claims host id st =>
    left
    dsimp only [Passkey.step]
    unfold Passkey.delete
    split
    · rfl
    split
    · rfl
    split
    · rfl
    split
    · rfl
    · exact hcl ..

theorem newest_same {s s' : State} (h : s'.log = s.log) : newest s s' = none := by
  unfold newest
  rw [h, if_neg (Nat.lt_irrefl _)]

theorem newest_cons {s s' : State} {e : Event} (h : s'.log = e :: s.log) : newest s s' = some e := by
  unfold newest
  rw [h, if_pos (by simp)]
  rfl

theorem log_ne (e : Event) (l : List Event) : l ≠ e :: l := by
  intro he
  have := congrArg List.length he
  simp at this

/-- This event is a login with a cookie for these claims. -/
def Spec.Granted (c : Claims) : Event → Prop
  | .login _ _ c' _ _ _ ck => ck = true ∧ c = c'
  | .added page _ _ k c' _ _ _ _ ck => page = .first ∧ ck = true ∧ c = { c' with passkey := some k.id }
  | .issued .. => False

/-- C130 (logins). The browser is told it is logged in, and gets a cookie, exactly if a login or first registration was
accepted for these very claims; and it is sent to the page of its URL token. -/
theorem done_iff (x : Site) (s : State) (r : Req) (u : Url) (c : Claims) :
    (serve x s .callback r).2 = .done u c ↔
    (∃ m, r.tok = some (u, m)) ∧ ∃ e, (serve x s .callback r).1.log = e :: s.log ∧ Spec.Granted c e := by
  have hs := shape x .callback r
  unfold serve
  revert hs
  generalize plan x .callback r = p
  intro hs
  cases hs with
  | reply _ f hf _ _ =>
    constructor
    · intro he
      have he : f s = .done u c := he
      have := hf s
      rw [he] at this
      exact this.elim
    · rintro ⟨-, e, he, -⟩
      exact absurd he (log_ne _ _)
  | junk =>
    constructor
    · intro he; cases he
    · rintro ⟨-, e, he, -⟩
      exact absurd he (log_ne _ _)
  | asrtOptions u' m ht hg =>
    constructor
    · intro he
      have he : allowList _ _ = .done u c := he
      unfold allowList at he
      split at he <;> cases he
    · rintro ⟨-, e, he, hG⟩
      cases he
      exact hG.elim
  | attOptions u' m c' ht hc hg =>
    dsimp only
    constructor
    · intro he
      unfold attAnswer at he
      split at he <;> cases he
    · rintro ⟨-, e, he, hG⟩
      rcases step_log x.cfg (Passkey.vacuum r.t0 s) (.attOptions .first r.now r.now c' r.host r.chal r.uid)
        with h | ⟨_, _, _, h, -⟩ | ⟨_, _, _, _, _, _, _, _, _, _, _, h, ho⟩ | ⟨_, _, _, _, _, _, _, _, ho, -⟩
      · rw [h] at he; exact absurd he (log_ne _ _)
      · rw [h] at he; cases he; exact hG.elim
      · cases ho
      · cases ho
  | check u' m a ht ha hg =>
    dsimp only
    unfold checkAnswer
    rcases step_log x.cfg (Passkey.vacuum r.t0 s) (.assert r.now r.t0 r.cookie a r.store)
        with h | ⟨_, _, _, h, ho⟩ | ⟨_, _, _, _, _, _, _, _, _, _, _, h, ho⟩ | ⟨_, _, _, _, _, _, _, _, ho, h⟩
    · rw [newest_same h, h]
      constructor
      · intro he; cases he
      · rintro ⟨-, e, he, -⟩
        exact absurd he (log_ne _ _)
    · rcases ho with ⟨_, _, ho⟩ | ⟨_, _, _, _, _, _, _, ho⟩ <;> cases ho
    · cases ho
    · cases ho
      rw [newest_cons h, h]
      dsimp only
      rename_i c'
      constructor
      · intro he
        split at he
        · cases he
        · split at he
          · rename_i hck
            cases he
            exact ⟨⟨m, ht⟩, _, rfl, hck, rfl⟩
          · cases he
      · rintro ⟨⟨m', hm⟩, e, he, hG⟩
        cases he
        obtain ⟨hck, rfl⟩ := hG
        rw [ht] at hm
        cases hm
        have hrec : Passkey.recent x.cfg c r.now = true := by
          rw [Bool.and_eq_true] at hck
          exact hck.1
        rw [if_neg (by simp [hrec]), if_pos hck]
  | add u' m c' a ht hc hal ha hg =>
    dsimp only
    unfold addAnswer
    rcases step_log x.cfg (Passkey.vacuum r.t0 s) (.attest .first r.now r.t0 c' r.host a r.store)
        with h | ⟨_, _, _, h, ho⟩ | ⟨_, _, _, _, _, _, _, _, _, _, _, h, ho⟩ | ⟨_, _, _, _, _, _, _, _, ho, -⟩
    · rw [newest_same h, h]
      constructor
      · intro he; cases he
      · rintro ⟨-, e, he, -⟩
        exact absurd he (log_ne _ _)
    · rcases ho with ⟨_, _, ho⟩ | ⟨_, _, _, _, _, _, _, ho⟩ <;> cases ho
    · cases ho
      rw [newest_cons h, h]
      dsimp only
      constructor
      · intro he
        split at he
        · rename_i hck
          cases he
          exact ⟨⟨m, ht⟩, _, rfl, rfl, hck, rfl⟩
        · cases he
      · rintro ⟨⟨m', hm⟩, e, he, hG⟩
        cases he
        obtain ⟨-, hck, rfl⟩ := hG
        rw [ht] at hm
        cases hm
        rw [if_pos hck]
    · cases ho

/-- C130 (refresh). The browser is asked to refresh the identity exactly if the passkey was accepted and the identity
behind it is too old. -/
theorem refresh_iff (x : Site) (s : State) (r : Req) (host email : Str) :
    (serve x s .callback r).2 = .refresh host email ↔
    host = r.host ∧ ∃ h k c a ck, (serve x s .callback r).1.log = .login h k c a r.t0 r.now ck :: s.log ∧
      email = c.email.getD [] ∧ ¬ Passkey.Spec.Recent x.cfg c r.now := by
  have hrec : ∀ c, Passkey.recent x.cfg c r.now = true ↔ Passkey.Spec.Recent x.cfg c r.now := by
    intro c
    unfold Passkey.recent Passkey.Spec.Recent
    by_cases h : x.cfg.refresh = 0
    · simp [h]
    · cases c.iat <;> simp [h]
  have hs := shape x .callback r
  unfold serve
  revert hs
  generalize plan x .callback r = p
  intro hs
  cases hs with
  | reply _ f hf _ _ =>
    constructor
    · intro he
      have he : f s = .refresh host email := he
      have := hf s
      rw [he] at this
      exact this.elim
    · rintro ⟨-, h, k, c, a, ck, he, -⟩
      exact absurd he (log_ne _ _)
  | junk =>
    constructor
    · intro he; cases he
    · rintro ⟨-, h, k, c, a, ck, he, -⟩
      exact absurd he (log_ne _ _)
  | asrtOptions u' m ht hg =>
    constructor
    · intro he
      have he : allowList _ _ = .refresh host email := he
      unfold allowList at he
      split at he <;> cases he
    · rintro ⟨-, h, k, c, a, ck, he, -⟩
      cases he
  | attOptions u' m c' ht hc hg =>
    dsimp only
    constructor
    · intro he
      unfold attAnswer at he
      split at he <;> cases he
    · rintro ⟨-, h, k, c, a, ck, he, -⟩
      rcases step_log x.cfg (Passkey.vacuum r.t0 s) (.attOptions .first r.now r.now c' r.host r.chal r.uid)
        with h | ⟨_, _, _, h, -⟩ | ⟨_, _, _, _, _, _, _, _, _, _, _, h, ho⟩ | ⟨_, _, _, _, _, _, _, _, ho, -⟩
      · rw [h] at he; exact absurd he (log_ne _ _)
      · rw [h] at he; cases he
      · cases ho
      · cases ho
  | check u' m a ht ha hg =>
    dsimp only
    unfold checkAnswer
    rcases step_log x.cfg (Passkey.vacuum r.t0 s) (.assert r.now r.t0 r.cookie a r.store)
        with h | ⟨_, _, _, h, ho⟩ | ⟨_, _, _, _, _, _, _, _, _, _, _, h, ho⟩ | ⟨_, _, _, _, _, _, _, _, ho, h⟩
    · rw [newest_same h, h]
      constructor
      · intro he; cases he
      · rintro ⟨-, h, k, c, a, ck, he, -⟩
        exact absurd he (log_ne _ _)
    · rcases ho with ⟨_, _, ho⟩ | ⟨_, _, _, _, _, _, _, ho⟩ <;> cases ho
    · cases ho
    · cases ho
      rw [newest_cons h, h]
      dsimp only
      rename_i c'
      constructor
      · intro he
        split at he
        · rename_i hr
          cases he
          exact ⟨rfl, _, _, _, _, _, rfl, rfl, fun hh => hr ((hrec c').2 hh)⟩
        · split at he <;> cases he
      · rintro ⟨rfl, h, k, c, a, ck, he, rfl, hn⟩
        cases he
        rw [if_pos (fun hh => hn ((hrec c').1 hh))]
  | add u' m c' a ht hc hal ha hg =>
    dsimp only
    unfold addAnswer
    rcases step_log x.cfg (Passkey.vacuum r.t0 s) (.attest .first r.now r.t0 c' r.host a r.store)
        with h | ⟨_, _, _, h, ho⟩ | ⟨_, _, _, _, _, _, _, _, _, _, _, h, ho⟩ | ⟨_, _, _, _, _, _, _, _, ho, -⟩
    · rw [newest_same h, h]
      constructor
      · intro he; cases he
      · rintro ⟨-, h, k, c, a, ck, he, -⟩
        exact absurd he (log_ne _ _)
    · rcases ho with ⟨_, _, ho⟩ | ⟨_, _, _, _, _, _, _, ho⟩ <;> cases ho
    · cases ho
      rw [newest_cons h, h]
      dsimp only
      constructor
      · intro he
        split at he <;> cases he
      · rintro ⟨-, h, k, c, a, ck, he, -⟩
        cases he
    · cases ho

/-- The keys stored for a user: what a restarted server would know. -/
def Spec.Stored (s : State) (email : Str) (k : Key) : Prop :=
  ∃ h u, Assoc.get s.disk.subjects email = some h ∧ Assoc.get s.disk.handles h = some u ∧ k ∈ u.keys

theorem ensureUser_subj {db db' : Db} {e : Str} {uid h : Nat} {c : Claims} {u : User}
    (he : Passkey.ensureUser db e uid c = (h, u, db')) : Assoc.get db'.subjects e = some h := by
  unfold Passkey.ensureUser at he
  cases hs : Assoc.get db.subjects e with
  | none =>
    rw [hs] at he
    simp only [Prod.mk.injEq] at he
    obtain ⟨rfl, -, rfl⟩ := he
    show Assoc.get (Assoc.put _ _ _) _ = _
    rw [Assoc.get_put, if_pos rfl]
  | some h' =>
    rw [hs] at he
    dsimp only at he
    cases hu : Assoc.get db.handles h' with
    | none =>
      rw [hu] at he
      simp only [Prod.mk.injEq] at he
      obtain ⟨rfl, -, rfl⟩ := he
      show Assoc.get (Assoc.put _ _ _) _ = _
      rw [Assoc.get_put, if_pos rfl]
    | some u' =>
      rw [hu] at he
      simp only [Prod.mk.injEq] at he
      obtain ⟨rfl, -, rfl⟩ := he
      exact hs

/-- What a registration leaves on disk. -/
theorem attest_disk (cfg : Passkey.Cfg) (s : State) (page : Page) (now t0 : Nat) (c : Claims) (host : Str) (a : AttReq)
    (st : Commit) :
    ((Passkey.attest cfg s page now t0 c host a st).log = s.log ∧
      (Passkey.attest cfg s page now t0 c host a st).disk = s.disk) ∨
    ∃ e h k ck, (Passkey.attest cfg s page now t0 c host a st).log = .added page e h k c host a t0 now ck :: s.log ∧
      c.email = some e ∧ a.creds = some (k.id, k.pub) ∧ (ck = true → st = .ok) ∧
      (st = .ok → Spec.Stored (Passkey.attest cfg s page now t0 c host a st) e k) ∧
      (st ≠ .ok → (Passkey.attest cfg s page now t0 c host a st).disk = s.disk) := by
  have hends := Passkey.attest_ends cfg s page now t0 c host a st
  revert hends
  generalize Passkey.attest cfg s page now t0 c host a st = s'
  intro hends
  cases hends with
  | same => exact .inl ⟨rfl, rfl⟩
  | consumed => exact .inl ⟨rfl, rfl⟩
  | full => exact .inl ⟨rfl, rfl⟩
  | done e ch h u db id pub he ht ho hch hcl hrp hup huv hcr hop hen hpg ck hck =>
    refine .inr ⟨e, h, _, ck, rfl, he, hcr, fun h => (hck h).1.2, ?_, ?_⟩
    · intro hst
      refine ⟨h, { u with keys := u.keys ++ [⟨id, pub, a.data.rp⟩] }, ?_, ?_, List.mem_append_right _ (List.mem_singleton.2 rfl)⟩
      · show Assoc.get (Passkey.commit _ st _).disk.subjects e = _
        rw [Passkey.commit_disk, if_pos hst]
        have hsub := ensureUser_subj hen
        exact hsub
      · show Assoc.get (Passkey.commit _ st _).disk.handles h = _
        rw [Passkey.commit_disk, if_pos hst]
        show Assoc.get (Assoc.put _ _ _) _ = _
        rw [Assoc.get_put, if_pos rfl]
    · intro hst
      show (Passkey.commit _ st _).disk = _
      rw [Passkey.commit_disk, if_neg hst]

/-- C130 (more keys). The management page answers "ok" to a new key exactly if the key is on disk then; with any other
answer nothing was written. -/
theorem addkey_answer (x : Site) (s : State) (r : Req) (hg : r.get = "AddKey".toList) :
    ((serve x s .manage r).2 = .ok → ∃ c e k a, r.ctx = some c ∧ c.email = some e ∧ r.att = some a ∧
      a.creds = some (k.id, k.pub) ∧ Spec.Stored (serve x s .manage r).1 e k) ∧
    ((serve x s .manage r).2 ≠ .ok → (serve x s .manage r).1.disk = s.disk) := by
  have hs := shape x .manage r
  unfold serve
  revert hs
  generalize plan x .manage r = p
  intro hs
  cases hs with
  | reply _ f hf _ _ =>
    refine ⟨fun he => ?_, fun _ => rfl⟩
    have he : f s = .ok := he
    have := hf s
    rw [he] at this
    exact this.elim
  | junk => exact ⟨fun he => (nomatch he), fun _ => rfl⟩
  | manageOptions c hc hm hg' => rw [hg] at hg'; exact absurd hg' (by decide +kernel)
  | manageDelete c id hc hm hi hk hg' => rw [hg] at hg'; exact absurd hg' (by decide +kernel)
  | manageAdd c a hc hm ha _ =>
    dsimp only [Passkey.step]
    rw [if_neg (by simp [hm])]
    unfold manageAnswer
    rcases attest_disk x.cfg (Passkey.vacuum r.t0 s) .manage r.now r.t0 c r.host a r.store with
      ⟨hl, hd⟩ | ⟨e, h, k, ck, hl, he, hcr, -, h1, h2⟩
    · rw [newest_same hl]
      exact ⟨fun he => (nomatch he), fun _ => hd⟩
    · rw [newest_cons hl]
      dsimp only
      split
      · rename_i hst
        exact ⟨fun _ => ⟨c, e, k, a, hc, he, ha, hcr, h1 hst⟩, fun h => absurd rfl h⟩
      · rename_i hst
        exact ⟨fun he => (nomatch he), fun _ => h2 hst⟩

/-- C130 (first key). Who is told that the first key is registered has it on disk. -/
theorem register_stored (x : Site) (s : State) (r : Req) (u : Url) (c : Claims) (hg : r.get = "AddKey".toList)
    (hd : (serve x s .callback r).2 = .done u c) :
    ∃ e k a, c.email = some e ∧ c.passkey = some k.id ∧ r.att = some a ∧ a.creds = some (k.id, k.pub) ∧
      Spec.Stored (serve x s .callback r).1 e k := by
  have hs := shape x .callback r
  unfold serve at hd ⊢
  revert hs hd
  generalize plan x .callback r = p
  intro hd hs
  cases hs with
  | reply _ f hf _ _ =>
    have he : f s = .done u c := hd
    have := hf s
    rw [he] at this
    exact this.elim
  | junk => cases hd
  | asrtOptions _ _ _ hg' => rw [hg] at hg'; exact absurd hg' (by decide +kernel)
  | attOptions _ _ _ _ _ hg' => rw [hg] at hg'; exact absurd hg' (by decide +kernel)
  | check _ _ _ _ _ hg' => rw [hg] at hg'; exact absurd hg' (by decide +kernel)
  | add u' m c' a ht hc hal ha _ =>
    have hal' : x.cfg.allowed (c'.email.getD []) = true := hal
    dsimp only [Passkey.step] at hd ⊢
    rw [if_neg (by simp [hal'])] at hd ⊢
    unfold addAnswer at hd
    rcases attest_disk x.cfg (Passkey.vacuum r.t0 s) .first r.now r.t0 c' r.host a r.store with
      ⟨hl, -⟩ | ⟨e, h, k, ck, hl, he, hcr, hck, h1, -⟩
    · rw [newest_same hl] at hd
      cases hd
    · rw [newest_cons hl] at hd
      dsimp only at hd
      split at hd
      · rename_i hc1
        cases hd
        exact ⟨e, k, a, he, rfl, ha, hcr, h1 (hck hc1)⟩
      · cases hd

/-- C130 (deletion), as far as it holds. If the storage works, "ok" means that the user has no such key any more. What is
missing: with a failing storage the answer is "ok" all the same. -/
theorem delete_answer_partial (x : Site) (s : State) (r : Req) (hg : r.get = "DeleteKey".toList) (hst : r.store = .ok)
    (hok : (serve x s .manage r).2 = .ok) :
    ∃ c id, r.ctx = some c ∧ r.id = some id ∧ c.passkey ≠ some id ∧
      ∀ k, Spec.Stored (serve x s .manage r).1 (c.email.getD []) k → k.id ≠ id := by
  have hs := shape x .manage r
  unfold serve at hok ⊢
  revert hs hok
  generalize plan x .manage r = p
  intro hok hs
  cases hs with
  | reply _ f hf _ _ =>
    have he : f s = .ok := hok
    have := hf s
    rw [he] at this
    exact this.elim
  | junk => cases hok
  | manageOptions c hc hm hg' => rw [hg] at hg'; exact absurd hg' (by decide +kernel)
  | manageAdd c a hc hm ha hg' => rw [hg] at hg'; exact absurd hg' (by decide +kernel)
  | manageDelete c id hc hm hi hk _ =>
    refine ⟨c, id, hc, hi, hk, ?_⟩
    dsimp only [Passkey.step]
    unfold Passkey.delete
    rw [if_neg (by simp [hm]), if_neg hk, hst, if_neg (fun h => nomatch h)]
    cases hd : Passkey.deleteKey (Passkey.reread s) (c.email.getD []) id with
    | none =>
      dsimp only
      rintro k ⟨h, u, h1, h2, -⟩
      exfalso
      have h1 : Assoc.get s.disk.subjects (c.email.getD []) = some h := h1
      have h2 : Assoc.get s.disk.handles h = some u := h2
      have h1' : Assoc.get (Passkey.reread s).subjects (c.email.getD []) = some h := by
        show Assoc.get (Assoc.overlay _ _) _ = _
        rw [Assoc.get_overlay, h1]
        rfl
      unfold Passkey.deleteKey at hd
      rw [h1'] at hd
      dsimp only at hd
      rw [Passkey.disk_reread h2] at hd
      cases hd
    | some db =>
      obtain ⟨h0, u0, hs0, hu0, rfl⟩ := Passkey.deleteKey_some hd
      dsimp only
      rintro k ⟨h, u, h1, h2, h3⟩
      rw [Passkey.commit_disk, if_pos rfl] at h1 h2
      have h1 : Assoc.get (Passkey.reread s).subjects (c.email.getD []) = some h := h1
      rw [hs0] at h1
      cases h1
      have h2 : Assoc.get (Assoc.put _ h0 _) h0 = some u := h2
      rw [Assoc.get_put, if_pos rfl] at h2
      cases h2
      simpa using (List.mem_filter.1 h3).2

/-! ## C132 -/

/-- The account of an email address: handle and keys; a new account gets the handle that the challenge has. -/
def Spec.Account (db : Db) (e : Str) (uid h : Nat) (keys : List Key) : Prop :=
  (∃ u, Assoc.get db.subjects e = some h ∧ Assoc.get db.handles h = some u ∧ keys = u.keys) ∨
  ((∀ h' u, Assoc.get db.subjects e = some h' → Assoc.get db.handles h' ≠ some u) ∧ h = uid ∧ keys = [])

theorem ensureUser_iff (db : Db) (e : Str) (uid : Nat) (c : Claims) (h : Nat) (keys : List Key) :
    Spec.Account db e uid h keys ↔
      (Passkey.ensureUser db e uid c).1 = h ∧ (Passkey.ensureUser db e uid c).2.1.keys = keys := by
  unfold Passkey.ensureUser Spec.Account
  cases hs : Assoc.get db.subjects e with
  | none =>
    dsimp only
    constructor
    · rintro (⟨u, h1, -⟩ | ⟨-, rfl, rfl⟩)
      · cases h1
      · exact ⟨rfl, rfl⟩
    · rintro ⟨rfl, rfl⟩
      exact .inr ⟨fun _ _ h => (nomatch h), rfl, rfl⟩
  | some h' =>
    dsimp only
    cases hu : Assoc.get db.handles h' with
    | none =>
      dsimp only
      constructor
      · rintro (⟨u, h1, h2, -⟩ | ⟨-, rfl, rfl⟩)
        · cases h1; rw [hu] at h2; cases h2
        · exact ⟨rfl, rfl⟩
      · rintro ⟨rfl, rfl⟩
        refine .inr ⟨fun _ u h => ?_, rfl, rfl⟩
        cases h
        rw [hu]
        exact fun h => (nomatch h)
    | some u' =>
      dsimp only
      constructor
      · rintro (⟨u, h1, h2, rfl⟩ | ⟨hn, -⟩)
        · cases h1; rw [hu] at h2; cases h2
          exact ⟨rfl, rfl⟩
        · exact absurd hu (hn h' u' rfl)
      · rintro ⟨rfl, rfl⟩
        exact .inl ⟨u', rfl, hu, rfl⟩

/-- What the browser and the key have to say to the challenge `ch` for the identity `c`. -/
structure Spec.Attested (cfg : Passkey.Cfg) (host : Str) (c : Claims) (a : AttReq) (id pub : Nat) : Prop where
  typ : a.data.typ = 0
  origin : a.data.origin = "https://".toList ++ host
  rp : a.data.rp = cfg.rpHash (cfg.hostOnly host)
  up : a.data.up = true
  uv : a.data.uv = true
  creds : a.creds = some (id, pub)

theorem attCheck_iff (cfg : Passkey.Cfg) (host : Str) (c : Claims) (a : AttReq) (ch : Passkey.Challenge) (id pub : Nat) :
    (a.data.typ = 0 ∧ a.data.origin = "https://".toList ++ host ∧
      Passkey.attCheck cfg host c a ch = some (id, pub)) ↔
    ch.claims = some c ∧ Spec.Attested cfg host c a id pub := by
  constructor
  · rintro ⟨h1, h2, h3⟩
    obtain ⟨h4, h5, h6, h7, h8⟩ := Passkey.attCheck_some h3
    exact ⟨h4, h1, h2, h5, h6, h7, h8⟩
  · rintro ⟨h, h1, h2, h3, h4, h5, h6⟩
    refine ⟨h1, h2, ?_⟩
    unfold Passkey.attCheck
    rw [if_neg (fun hn => hn h), if_neg (fun hn => hn h3), if_neg (by simp [h4]), if_neg (by simp [h5]), h6]

/-- Who may add keys on this page. -/
def Spec.MayAdd (cfg : Passkey.Cfg) (host : Str) (c : Claims) (now : Nat) : Page → Prop
  | .first => ∃ e, c.email = some e ∧ cfg.allowed e = true
  | .manage => cfg.epHost host = host ∧ c.hhash = some (cfg.hhash host) ∧ (∃ i, c.iat = some i ∧ now ≤ i + 600) ∧
      c.passkey ≠ none

theorem manageOk_iff (cfg : Passkey.Cfg) (host : Str) (c : Claims) (now : Nat) :
    Passkey.manageOk cfg host c now = true ↔ Spec.MayAdd cfg host c now .manage := by
  unfold Passkey.manageOk Spec.MayAdd
  rw [Bool.and_eq_true, Bool.and_eq_true, Bool.and_eq_true, and_assoc, and_assoc, decide_eq_true_eq, decide_eq_true_eq]
  refine and_congr Iff.rfl (and_congr Iff.rfl (and_congr ?_ ?_))
  · cases c.iat <;> simp
  · cases c.passkey <;> simp

/-- C62, C132. Exactly which keys are registered: for a user who may, in answer to a challenge that was issued for the
same identity, with everything that the browser and the key have to say, while storage can be opened, and, at the
first registration, if the account has no keys. It is a login too exactly at a first registration that was written,
for a complete identity. -/
theorem register_iff (cfg : Passkey.Cfg) (s : State) (page : Page) (now t0 : Nat) (c : Claims) (host : Str) (a : AttReq)
    (st : Commit) (e : Str) (h : Nat) (k : Key) (ck : Bool) :
    (Passkey.step cfg s (.attest page now t0 c host a st)).log = .added page e h k c host a t0 now ck :: s.log ↔
    c.email = some e ∧ Spec.MayAdd cfg host c now page ∧ Spec.Attested cfg host c a k.id k.pub ∧ k.rp = a.data.rp ∧
    (∃ ch keys, Assoc.get s.challenges a.data.chal = some ch ∧ ch.claims = some c ∧
      Spec.Account (Passkey.reread s) e ch.uid h keys ∧ (page = .first → keys = [])) ∧
    st ≠ .openFails ∧ (ck = true ↔ page = .first ∧ st = .ok ∧ Passkey.Spec.Complete c) := by
  have hmay : ∀ (hx : (Passkey.step cfg s (.attest page now t0 c host a st)).log ≠ s.log ∨
      (Spec.MayAdd cfg host c now page ∧ c.email = some e)), Passkey.step cfg s (.attest page now t0 c host a st) =
        Passkey.attest cfg s page now t0 c host a st := by
    intro hx
    cases page with
    | first =>
      dsimp only [Passkey.step] at hx ⊢
      split
      · rename_i hn
        rw [if_pos hn] at hx
        rcases hx with hx | ⟨⟨e', he', ha⟩, he⟩
        · exact absurd rfl hx
        · rw [he'] at hn
          simp [ha] at hn
      · rfl
    | manage =>
      dsimp only [Passkey.step] at hx ⊢
      split
      · rename_i hn
        rw [if_pos hn] at hx
        rcases hx with hx | ⟨hm, -⟩
        · exact absurd rfl hx
        · rw [(manageOk_iff ..).2 hm] at hn
          cases hn
      · rfl
  have hmay2 : ∀ (hx : (Passkey.step cfg s (.attest page now t0 c host a st)).log ≠ s.log) (he : c.email = some e),
      Spec.MayAdd cfg host c now page := by
    intro hx he
    cases page with
    | first =>
      dsimp only [Passkey.step] at hx
      split at hx
      · exact absurd rfl hx
      · rename_i hn
        exact ⟨e, he, by simpa [he] using hn⟩
    | manage =>
      dsimp only [Passkey.step] at hx
      split at hx
      · exact absurd rfl hx
      · rename_i hn
        exact (manageOk_iff ..).1 (by simpa using hn)
  have hcook : ∀ id, Passkey.cookieOk { c with passkey := some id } = true ↔ Passkey.Spec.Complete c := by
    intro id
    unfold Passkey.cookieOk Passkey.Spec.Complete
    rw [Bool.and_eq_true, Bool.and_eq_true, and_assoc]
    refine and_congr ?_ (and_congr_left' ?_)
    · cases c.sub <;> simp [and_comm]
    · cases c.email <;> simp [and_comm]
  have hcl : ∀ (s : State) st db, (Passkey.commit s st db).log = s.log := by
    intro s st db
    unfold Passkey.commit
    split <;> rfl
  constructor
  · intro hl
    have hne : (Passkey.step cfg s (.attest page now t0 c host a st)).log ≠ s.log := by
      rw [hl]; exact fun h => log_ne _ _ h.symm
    rw [hmay (.inl hne)] at hl
    unfold Passkey.attest at hl
    cases he : c.email with
    | none => rw [he] at hl; exact absurd hl (log_ne _ _)
    | some e' =>
      rw [he] at hl
      dsimp only at hl
      split at hl
      · exact absurd hl (log_ne _ _)
      rename_i ht
      split at hl
      · exact absurd hl (log_ne _ _)
      rename_i ho
      split at hl
      · exact absurd hl (log_ne _ _)
      rename_i ch hch
      split at hl
      · exact absurd hl (log_ne _ _)
      rename_i id pub hac
      split at hl
      · exact absurd hl (log_ne _ _)
      rename_i hop
      split at hl
      · exact absurd hl (log_ne _ _)
      rename_i hk
      simp only [List.cons.injEq, Event.added.injEq, and_true, true_and] at hl
      obtain ⟨rfl, rfl, rfl, rfl⟩ := hl
      obtain ⟨h1, h2⟩ := (attCheck_iff ..).1 ⟨Decidable.not_not.1 ht, Decidable.not_not.1 ho, hac⟩
      refine ⟨rfl, hmay2 hne he, h2, rfl, ⟨ch, _, hch, h1, (ensureUser_iff (c := c) ..).2 ⟨rfl, rfl⟩,
        fun hp => Decidable.not_not.1 fun hx => hk ⟨hp, hx⟩⟩, hop, ?_⟩
      have hco := hcook id
      rw [he] at hco
      rw [Bool.and_eq_true, Bool.and_eq_true, decide_eq_true_eq, decide_eq_true_eq, hco, and_assoc]
  · rintro ⟨he, hm, hatt, hrp, ⟨ch, keys, hch, hcc, hac, hkeys⟩, hop, hck⟩
    rw [hmay (.inr ⟨hm, he⟩)]
    obtain ⟨h1, h2, h3⟩ := (attCheck_iff cfg host c a ch k.id k.pub).2 ⟨hcc, hatt⟩
    obtain ⟨h4, h5⟩ := (ensureUser_iff (c := c) ..).1 hac
    unfold Passkey.attest
    rw [he]
    dsimp only
    rw [if_neg (fun h => h h1), if_neg (fun h => h h2), hch]
    dsimp only
    rw [h3]
    dsimp only
    rw [if_neg hop]
    cases hen : Passkey.ensureUser (Passkey.reread s) e ch.uid c with
    | mk h' y =>
      obtain ⟨u, db⟩ := y
      rw [hen] at h4 h5
      cases h4
      dsimp only at h5 ⊢
      rw [if_neg (fun hx => hx.2 (h5.trans (hkeys hx.1)))]
      have hb : ck = (decide (page = .first) && decide (st = .ok) &&
          Passkey.cookieOk { c with passkey := some k.id }) := by
        rw [Bool.eq_iff_iff, hck, Bool.and_eq_true, Bool.and_eq_true, decide_eq_true_eq, decide_eq_true_eq, hcook, and_assoc]
      rw [hb]
      cases k
      cases hrp
      rw [he]

/-- A request that a page of the login sends: with the header, with the URL token of a page, and not with a nonce. -/
structure Spec.FromPage (r : Req) (u : Url) : Prop where
  own : Spec.Own r
  nonce : r.nonce = none
  redirect : r.redirect ≠ []
  tok : ∃ m, r.tok = some (u, m)

/-- C130 (nonces). A request with a nonce that is known gets a URL token for the page that the nonce stands for, with
the login hint, exactly if a token can be made; it does nothing else. -/
theorem nonce_exchange (x : Site) (s : State) (r : Req) (u : Url) (hint : Str) (h : r.nonce = some (u, hint)) :
    (serve x s .callback r).1 = s ∧
    (serve x s .callback r).2 = if r.tokenOK = true then .exchanged u hint else .error 500 := by
  have hp : plan x .callback r = callback x r := rfl
  unfold serve
  rw [hp]
  unfold callback
  rw [h]
  dsimp only
  by_cases ht : r.tokenOK = true
  · rw [if_neg (fun hn => hn ht), if_pos ht]
    exact ⟨rfl, rfl⟩
  · rw [if_pos ht, if_neg ht]
    exact ⟨rfl, rfl⟩

/-- A request without a nonce and without a valid URL token is refused, unless it is for the script; so is one that wants
to register a key without a login at the other provider. -/
theorem refusals (x : Site) (s : State) (r : Req) (hn : r.nonce = none) (hj : r.get ≠ "JS".toList) :
    ((r.redirect = [] ∨ r.tok = none) → serve x s .callback r = (s, .error 400)) ∧
    (r.redirect ≠ [] → (∃ t, r.tok = some t) → r.cookie = none →
      (r.get = "AttestationOptions".toList ∨ r.get = "AddKey".toList) → serve x s .callback r = (s, .error 500)) := by
  have hp : plan x .callback r = callback x r := rfl
  unfold serve
  rw [hp]
  unfold callback
  rw [hn]
  dsimp only
  rw [if_neg hj]
  refine ⟨fun h => ?_, fun hr ht hc hg => ?_⟩
  · by_cases hr : r.redirect = []
    · rw [if_pos hr]
    · rw [if_neg hr, h.resolve_left hr]
  · obtain ⟨⟨u, m⟩, ht⟩ := ht
    rw [if_neg hr, ht]
    dsimp only
    unfold withoutCookie
    rw [if_pos hc, if_neg, if_neg, if_pos hg]
    · rintro h; rcases hg with hg | hg <;> rw [h] at hg <;> exact absurd hg (by decide +kernel)
    · rintro h; rcases hg with hg | hg <;> rw [h] at hg <;> exact absurd hg (by decide +kernel)

theorem guarded_own {r : Req} (h : Spec.Own r) (p : Plan) : guarded r p = p := by
  unfold guarded
  rw [if_neg (fun hn => hn h.1), if_neg (fun hn => hn h.2)]

theorem callback_modes {x : Site} {r : Req} {u : Url} (hf : Spec.FromPage r u) (hj : r.get ≠ "JS".toList)
    (hc : NeedsCookie r.get → r.cookie ≠ none) : ∃ m, plan x .callback r = callbackModes x r u m := by
  obtain ⟨-, hn, hr, m, ht⟩ := hf
  refine ⟨m, ?_⟩
  show callback x r = _
  unfold callback
  rw [hn]
  dsimp only
  rw [if_neg hj, if_neg hr, ht]
  dsimp only
  unfold withoutCookie
  split
  · rename_i hk
    rw [if_neg, if_neg, if_neg]
    · rintro (h | h)
      · exact hc (.inr (.inr (.inl h))) hk
      · exact hc (.inr (.inr (.inr h))) hk
    · exact fun h => hc (.inr (.inl h)) hk
    · exact fun h => hc (.inl h) hk
  · rfl

theorem plan_check {x : Site} {r : Req} {u : Url} {a : AsrtReq} (hf : Spec.FromPage r u) (hg : r.get = "Check".toList)
    (ha : r.asrt = some a) :
    plan x .callback r = .call (some r.t0) (.assert r.now r.t0 r.cookie a r.store) (checkAnswer x r u) := by
  obtain ⟨m, hp⟩ := callback_modes (x := x) hf (by rw [hg]; decide +kernel) (by
    rw [hg]
    intro h
    rcases h with h | h | h | h <;> exact absurd h (by decide +kernel))
  rw [hp]
  unfold callbackModes
  rw [hg, if_neg (by decide +kernel), if_neg (by decide +kernel), if_neg (by decide +kernel), if_pos rfl,
    guarded_own hf.own, ha]

theorem plan_add {x : Site} {r : Req} {u : Url} {a : AttReq} {c : Claims} (hf : Spec.FromPage r u)
    (hg : r.get = "AddKey".toList) (hc : r.cookie = some c) (hal : x.allowed (c.email.getD []) = true)
    (ha : r.att = some a) :
    plan x .callback r = .call (some r.t0) (.attest .first r.now r.t0 c r.host a r.store) (addAnswer u) := by
  obtain ⟨m, hp⟩ := callback_modes (x := x) hf (by rw [hg]; decide +kernel) (by rw [hc]; exact fun _ h => (nomatch h))
  rw [hp]
  unfold callbackModes
  rw [hg, if_neg (by decide +kernel), if_neg (by decide +kernel), if_neg (by decide +kernel), if_neg (by decide +kernel),
    if_pos rfl, guarded_own hf.own, hc]
  dsimp only
  rw [if_neg (by simp [hal]), ha]

theorem plan_att {x : Site} {r : Req} {u : Url} {c : Claims} (hf : Spec.FromPage r u)
    (hg : r.get = "AttestationOptions".toList) (hc : r.cookie = some c) :
    plan x .callback r =
      .call (some r.t0) (.attOptions .first r.now r.now c r.host r.chal r.uid) (attAnswer x c) := by
  obtain ⟨m, hp⟩ := callback_modes (x := x) hf (by rw [hg]; decide +kernel) (by rw [hc]; exact fun _ h => (nomatch h))
  rw [hp]
  unfold callbackModes
  rw [hg, if_neg (by decide +kernel), if_neg (by decide +kernel), if_pos rfl, guarded_own hf.own, hc]

theorem plan_asrt {x : Site} {r : Req} {u : Url} (hf : Spec.FromPage r u) (hg : r.get = "AssertionOptions".toList) :
    plan x .callback r =
      .call (some r.t0) (.asrtOptions r.now r.chal) fun s _ => allowList s.db r.loginId := by
  obtain ⟨m, hp⟩ := callback_modes (x := x) hf (by rw [hg]; decide +kernel) (by
    rw [hg]
    intro h
    rcases h with h | h | h | h <;> exact absurd h (by decide +kernel))
  rw [hp]
  unfold callbackModes
  rw [hg, if_neg (by decide +kernel), if_pos rfl, guarded_own hf.own]

/-- The keys known for a user name. -/
def Spec.Has (db : Db) (name : Str) (k : Key) : Prop :=
  ∃ h u, Assoc.get db.subjects name = some h ∧ Assoc.get db.handles h = some u ∧ k ∈ u.keys

theorem mem_userKeys (db : Db) (name : Str) (k : Key) : k ∈ userKeys db name ↔ Spec.Has db name k := by
  unfold userKeys Spec.Has
  cases hs : Assoc.get db.subjects name with
  | none => simp
  | some h =>
    dsimp only
    cases hu : Assoc.get db.handles h with
    | none =>
      constructor
      · intro h; cases h
      · rintro ⟨h', u, h1, h2, -⟩
        cases h1; rw [hu] at h2; cases h2
    | some u =>
      constructor
      · intro hk; exact ⟨h, u, rfl, hu, hk⟩
      · rintro ⟨h', u', h1, h2, h3⟩
        cases h1; rw [hu] at h2; cases h2
        exact h3

/-- C132 (what logins offer). The page that asks for a login gets a new challenge, with exactly the keys of the user
whose name was entered; if there is no such user, with one that nobody has; without a name, with none. -/
theorem offered (x : Site) (s : State) (r : Req) (u : Url) (hf : Spec.FromPage r u)
    (hg : r.get = "AssertionOptions".toList) :
    ∃ l fake, (serve x s .callback r).2 = .assertion l fake ∧
      (∀ i, i ∈ l ↔ ∃ k, Spec.Has s.db r.loginId k ∧ k.id = i) ∧
      (fake = true ↔ r.loginId ≠ [] ∧ ∀ h, Assoc.get s.db.subjects r.loginId ≠ some h) ∧
      Assoc.get (serve x s .callback r).1.challenges r.chal = some ⟨r.now, none, 0⟩ := by
  unfold serve
  rw [plan_asrt hf hg]
  dsimp only
  have hch : Assoc.get (Passkey.step x.cfg (Passkey.vacuum r.t0 s) (.asrtOptions r.now r.chal)).challenges r.chal =
      some ⟨r.now, none, 0⟩ := by
    show Assoc.get (Assoc.put _ _ _) _ = _
    rw [Assoc.get_put, if_pos rfl]
  show ∃ l fake, allowList s.db r.loginId = _ ∧ _
  unfold allowList
  cases hs : Assoc.get s.db.subjects r.loginId with
  | some h =>
    refine ⟨_, _, rfl, ?_, ?_, hch⟩
    · intro i
      rw [List.mem_map]
      exact exists_congr fun k => and_congr_left' (mem_userKeys ..)
    · constructor
      · intro h; cases h
      · rintro ⟨-, hn⟩; exact absurd rfl (hn h)
  | none =>
    refine ⟨_, _, rfl, ?_, ?_, hch⟩
    · intro i
      constructor
      · intro h; cases h
      · rintro ⟨k, ⟨h, u, h1, -⟩, -⟩
        rw [hs] at h1; cases h1
    · rw [decide_eq_true_eq]
      exact ⟨fun h => ⟨h, fun _ h => (nomatch h)⟩, fun h => h.1⟩

/-- C132 (what registrations offer). A logged-in user gets a challenge for registering, with the name of the site and
with the keys already registered, so that none is registered twice. -/
theorem registration_offered (x : Site) (s : State) (r : Req) (u : Url) (c : Claims) (e : Str) (hf : Spec.FromPage r u)
    (hg : r.get = "AttestationOptions".toList) (hc : r.cookie = some c) (he : c.email = some e)
    (hwf : ∀ h, Assoc.get s.db.subjects e = some h → ∃ u, Assoc.get s.db.handles h = some u) :
    ∃ l uid, (serve x s .callback r).2 = .attestation x.ep e l ∧
      (∀ i, i ∈ l ↔ ∃ k, Spec.Has s.db e k ∧ k.id = i) ∧
      Assoc.get (serve x s .callback r).1.challenges r.chal = some ⟨r.now, some c, uid⟩ ∧
      (∀ h, Assoc.get s.db.subjects e = some h → uid = h) ∧
      (Assoc.get s.db.subjects e = none → uid = r.uid) := by
  have hu : ∃ uid, Passkey.attUid s.db e r.uid = some uid ∧ (∀ h, Assoc.get s.db.subjects e = some h → uid = h) ∧
      (Assoc.get s.db.subjects e = none → uid = r.uid) := by
    unfold Passkey.attUid
    cases hs : Assoc.get s.db.subjects e with
    | none => exact ⟨_, rfl, fun _ h => (nomatch h), fun _ => rfl⟩
    | some h =>
      obtain ⟨u, hu⟩ := hwf h hs
      dsimp only
      rw [hu]
      exact ⟨_, rfl, fun _ h => Option.some.inj h, fun h => (nomatch h)⟩
  obtain ⟨uid, hu, hu1, hu2⟩ := hu
  unfold serve
  rw [plan_att hf hg hc]
  dsimp only [Passkey.step]
  rw [if_neg (fun h => nomatch h.1)]
  have hst : Passkey.attOptions (Passkey.vacuum r.t0 s) r.now c r.chal r.uid =
      { Passkey.vacuum r.t0 s with
        challenges := Assoc.put (Passkey.vacuum r.t0 s).challenges r.chal ⟨r.now, some c, uid⟩
        log := .issued r.chal (some c) r.now :: s.log } := by
    unfold Passkey.attOptions
    rw [he]
    dsimp only
    rw [show (Passkey.vacuum r.t0 s).db = s.db from rfl, hu]
    rfl
  rw [hst]
  refine ⟨(userKeys s.db e).map (·.id), uid, ?_, ?_, ?_, hu1, hu2⟩
  · unfold attAnswer
    rw [newest_cons (s := Passkey.vacuum r.t0 s) (e := .issued r.chal (some c) r.now) rfl, he]
    rfl
  · intro i
    rw [List.mem_map]
    exact exists_congr fun k => and_congr_left' (mem_userKeys ..)
  · show Assoc.get (Assoc.put _ _ _) _ = _
    rw [Assoc.get_put, if_pos rfl]

/-- C132 (challenges stay). Whatever else happens, a challenge stays until it is answered or five minutes old, except
that a restart forgets it (and unless another one with the same random value is issued). -/
theorem pending_kept (cfg : Passkey.Cfg) (s : State) (o : Op) (n : Nat) (ch : Passkey.Challenge)
    (hch : Assoc.get s.challenges n = some ch)
    (ho : match o with
      | .vacuum t => t ≤ ch.created + 300
      | .restart => False
      | .attOptions _ _ _ _ _ m _ | .asrtOptions _ m => m ≠ n
      | .attest _ _ _ _ _ a _ => a.data.chal ≠ n
      | .assert _ _ _ a _ => a.data.chal ≠ n
      | .reload | .delete .. => True) :
    Assoc.get (Passkey.step cfg s o).challenges n = some ch := by
  have hcl : ∀ (s : State) st db, (Passkey.commit s st db).challenges = s.challenges := by
    intro s st db
    unfold Passkey.commit
    split <;> rfl
  have hdel : ∀ m, m ≠ n → Assoc.get (Assoc.del s.challenges m) n = some ch := by
    intro m hm
    rw [Assoc.get_del, if_neg (fun h => hm h.symm), hch]
  have hput : ∀ m v, m ≠ n → Assoc.get (Assoc.put s.challenges m v) n = some ch := by
    intro m v hm
    rw [Assoc.get_put, if_neg (fun h => hm h.symm), hch]
  have hatt : ∀ page now t0 c host (a : AttReq) st, a.data.chal ≠ n →
      Assoc.get (Passkey.attest cfg s page now t0 c host a st).challenges n = some ch := by
    intro page now t0 c host a st ha
    have hends := Passkey.attest_ends cfg s page now t0 c host a st
    revert hends
    generalize Passkey.attest cfg s page now t0 c host a st = s'
    intro hends
    cases hends with
    | same => exact hch
    | consumed => exact hdel _ ha
    | full => exact hdel _ ha
    | done =>
      show Assoc.get (Passkey.commit _ _ _).challenges n = _
      rw [hcl]
      exact hdel _ ha
  cases o with
  | vacuum t =>
    have ho : t ≤ ch.created + 300 := ho
    show Assoc.get (s.challenges.filter fun p => ¬ (p.2.created + 300 < t)) n = _
    revert hch
    generalize s.challenges = l
    intro hch
    clear hput hdel hatt
    induction l with
    | nil => cases hch
    | cons p l ih =>
      unfold Assoc.get at hch
      by_cases hp : p.1 = n
      · rw [if_pos hp] at hch
        cases hch
        rw [List.filter_cons_of_pos (by simpa using ho)]
        unfold Assoc.get
        rw [if_pos hp]
      · rw [if_neg hp] at hch
        by_cases hk : p.2.created + 300 < t
        · rw [List.filter_cons_of_neg (by simpa using hk)]
          exact ih hch
        · rw [List.filter_cons_of_pos (by simpa using hk)]
          unfold Assoc.get
          rw [if_neg hp]
          exact ih hch
  | reload => exact hch
  | restart => exact ho.elim
  | attOptions page now t claims host m uid =>
    dsimp only [Passkey.step]
    split
    · exact hch
    unfold Passkey.attOptions
    cases claims.email with
    | none => exact hch
    | some e =>
      dsimp only
      cases Passkey.attUid s.db e uid with
      | none => exact hch
      | some u => exact hput _ _ ho
  | asrtOptions t m => exact hput _ _ ho
  | attest page now t0 c host a st =>
    cases page with
    | first =>
      dsimp only [Passkey.step]
      split
      · exact hch
      · exact hatt _ _ _ _ _ _ _ ho
    | manage =>
      dsimp only [Passkey.step]
      split
      · exact hch
      · exact hatt _ _ _ _ _ _ _ ho
  | assert now t0 token a st =>
    have hends := Passkey.assert_ends cfg s now t0 token a st
    dsimp only [Passkey.step]
    revert hends
    generalize Passkey.assert cfg s now t0 token a st = s'
    intro hends
    cases hends with
    | same => exact hch
    | consumed => exact hdel _ ho
    | refused => exact hdel _ ho
    | failed => rw [hcl]; exact hdel _ ho
    | done =>
      show Assoc.get (Passkey.commit _ _ _).challenges n = _
      rw [hcl]
      exact hdel _ ho
  | delete now claims host id st =>
    dsimp only [Passkey.step]
    unfold Passkey.delete
    split
    · exact hch
    split
    · exact hch
    split
    · exact hch
    split
    · exact hch
    · rw [hcl]; exact hch

/-- C132 (logins work). A user with a registered key who answers a challenge within five minutes is logged in and sent
to the page they wanted. -/
theorem login_works (x : Site) (s : State) (r : Req) (u : Url) (a : AsrtReq) (ch : Passkey.Challenge) (h : Nat)
    (usr : User) (k : Key) (hf : Spec.FromPage r u) (hg : r.get = "Check".toList) (ha : r.asrt = some a)
    (ht : a.data.typ = 1) (hup : a.data.up = true) (huv : a.data.uv = true) (hst : r.store = .ok)
    (hch : Assoc.get s.challenges a.data.chal = some ch) (ht0 : r.t0 ≤ ch.created + 300)
    (hk : Passkey.Spec.Known x.cfg (Passkey.reread s) a h usr k)
    (hc : ∀ cl, r.cookie = some cl → cl.sub = usr.claims.sub → cl.email = usr.claims.email → cl = usr.claims)
    (hr : Passkey.Spec.Recent x.cfg usr.claims r.now) (hcm : Passkey.Spec.Complete usr.claims) :
    (serve x s .callback r).2 = .done u { usr.claims with passkey := some k.id } := by
  rw [done_iff]
  refine ⟨hf.tok, .login h k { usr.claims with passkey := some k.id } a r.t0 r.now true, ?_, rfl, rfl⟩
  unfold serve
  rw [plan_check hf hg ha]
  dsimp only
  refine (Passkey.login_iff x.cfg (Passkey.vacuum r.t0 s) r.now r.t0 r.cookie a r.store h k _ true).2
    ⟨usr, usr.claims, ht, hup, huv, hst, ⟨ch, pending_kept x.cfg s (.vacuum r.t0) _ ch hch ht0⟩, hk, ?_, rfl, ?_⟩
  · by_cases hx : ∃ cl, r.cookie = some cl ∧ cl.sub = usr.claims.sub ∧ cl.email = usr.claims.email
    · obtain ⟨cl, h1, h2, h3⟩ := hx
      have := hc cl h1 h2 h3
      subst this
      exact .inl ⟨h1, rfl, rfl⟩
    · exact .inr ⟨rfl, fun cl h1 h2 => hx ⟨cl, h1, h2⟩⟩
  · exact ⟨fun _ => ⟨hr, hcm⟩, fun _ => rfl⟩

/-- C132 (registrations). An allowed user without keys, whose browser answers the challenge on the page of the endpoint
as it should (in particular with the name of the site that the options had), within five minutes, gets the key
registered and is logged in, exactly if that name is the one that is expected. -/
theorem registration_iff (x : Site) (s : State) (r : Req) (u : Url) (c : Claims) (e : Str) (a : AttReq)
    (ch : Passkey.Challenge) (h id pub : Nat) (hf : Spec.FromPage r u) (hg : r.get = "AddKey".toList)
    (hc : r.cookie = some c) (he : c.email = some e) (hal : x.allowed e = true) (hcm : Passkey.Spec.Complete c)
    (ha : r.att = some a) (ht : a.data.typ = 0) (ho : a.data.origin = "https://".toList ++ r.host)
    (hup : a.data.up = true) (huv : a.data.uv = true) (hcr : a.creds = some (id, pub)) (hst : r.store = .ok)
    (hch : Assoc.get s.challenges a.data.chal = some ch) (hcc : ch.claims = some c) (ht0 : r.t0 ≤ ch.created + 300)
    (hac : Spec.Account (Passkey.reread s) e ch.uid h []) (hrp : a.data.rp = x.rpHash x.ep) :
    (serve x s .callback r).2 = .done u { c with passkey := some id } ↔ x.rpHash x.ep = x.rpHash (hostOnly r.host) := by
  rw [done_iff]
  unfold serve
  rw [plan_add hf hg hc (by rw [he]; exact hal) ha]
  dsimp only
  have hch' := pending_kept x.cfg s (.vacuum r.t0) _ ch hch ht0
  constructor
  · rintro ⟨-, ev, hl, hG⟩
    rcases step_log x.cfg (Passkey.vacuum r.t0 s) (.attest .first r.now r.t0 c r.host a r.store)
        with h | ⟨_, _, _, h, ho⟩ | ⟨page, now, t0, c', host, req, st, e', h', k', ck, h, ho⟩ | ⟨_, _, _, _, _, _, _, _, ho, -⟩
    · rw [h] at hl; exact absurd hl (log_ne _ _)
    · rcases ho with ⟨_, _, ho⟩ | ⟨_, _, _, _, _, _, _, ho⟩ <;> cases ho
    · cases ho
      have := ((register_iff ..).1 h).2.2.1.rp
      rw [hrp] at this
      exact this
    · cases ho
  · intro heq
    refine ⟨hf.tok, .added .first e h ⟨id, pub, a.data.rp⟩ c r.host a r.t0 r.now true, ?_, rfl, rfl, rfl⟩
    exact (register_iff ..).2 ⟨he, ⟨e, he, hal⟩, ⟨ht, ho, hrp.trans heq, hup, huv, hcr⟩, rfl,
      ⟨ch, [], hch', hcc, hac, fun _ => rfl⟩, by rw [hst]; exact fun h => (nomatch h),
      ⟨fun _ => ⟨rfl, hst, hcm⟩, fun _ => rfl⟩⟩

/-! ## Host names -/

theorem span_colon (h t : Str) (hh : ':' ∉ h) :
    (h ++ ':' :: t).takeWhile (· ≠ ':') = h ∧ (h ++ ':' :: t).dropWhile (· ≠ ':') = ':' :: t := by
  induction h with
  | nil => exact ⟨rfl, rfl⟩
  | cons a h ih =>
    have ha : decide (a ≠ ':') = true := by
      simp only [List.mem_cons, not_or] at hh
      simpa using fun h => hh.1 h.symm
    have := ih fun hx => hh (List.mem_cons_of_mem _ hx)
    rw [List.cons_append, List.takeWhile_cons_of_pos (p := fun x : Char => decide (x ≠ ':')) ha, List.dropWhile_cons_of_pos (p := fun x : Char => decide (x ≠ ':')) ha, this.1, this.2]
    exact ⟨rfl, rfl⟩

theorem span_plain (h : Str) (hh : ':' ∉ h) : h.dropWhile (· ≠ ':') = [] := by
  induction h with
  | nil => rfl
  | cons a h ih =>
    have ha : decide (a ≠ ':') = true := by
      simp only [List.mem_cons, not_or] at hh
      simpa using fun h => hh.1 h.symm
    rw [List.dropWhile_cons_of_pos (p := fun x : Char => decide (x ≠ ':')) ha]
    exact ih fun hx => hh (List.mem_cons_of_mem _ hx)

theorem split_plain (h : Str) (hh : ':' ∉ h) : splitHostPort h = none := by
  unfold splitHostPort
  rw [span_plain h hh]

theorem split_join (h p : Str) (hh : ':' ∉ h) (hp : ':' ∉ p) : splitHostPort (h ++ ':' :: p) = some (h, p) := by
  unfold splitHostPort
  rw [(span_colon h p hh).2, (span_colon h p hh).1]
  dsimp only
  rw [if_neg hp]

theorem host_plain (h : Str) (hh : ':' ∉ h) : hostOnly h = h ∧ portOf h = [] := by
  unfold hostOnly portOf
  rw [split_plain h hh]
  exact ⟨rfl, rfl⟩

theorem host_join (h p : Str) (hh : ':' ∉ h) (hp : ':' ∉ p) :
    hostOnly (h ++ ':' :: p) = h ∧ portOf (h ++ ':' :: p) = p := by
  unfold hostOnly portOf
  rw [split_join h p hh hp]
  exact ⟨rfl, rfl⟩

/-- The host without a port is never of the form "host:port". -/
theorem hostOnly_ne (s h p : Str) (hh : ':' ∉ h) (hp : ':' ∉ p) : hostOnly s ≠ h ++ ':' :: p := by
  intro he
  unfold hostOnly at he
  split at he
  · rename_i h' q hs
    have : ':' ∉ h' := by
      unfold splitHostPort at hs
      split at hs
      · split at hs
        · cases hs
        · cases hs
          intro hm
          have hall := List.all_takeWhile (p := fun x : Char => decide (x ≠ ':')) (l := s)
          have := List.all_eq_true.1 hall _ hm
          simp at this
      · cases hs
    rw [he] at this
    exact this (by simp)
  · rename_i hs
    rw [he, split_join h p hh hp] at hs
    cases hs

/-- C132 (violation). If the endpoint has a port, no browser that answers with the name of the site it was given can ever
register a key, whatever it does (names are different for different sites). -/
theorem port_blocks_registration (x : Site) (hinj : ∀ a b, x.rpHash a = x.rpHash b → a = b) (h p : Str) (hh : ':' ∉ h)
    (hp : ':' ∉ p) (hep : x.ep = h ++ ':' :: p) (s : State) (r : Req) (u : Url) (c : Claims)
    (hg : r.get = "AddKey".toList) (hrp : ∀ a, r.att = some a → a.data.rp = x.rpHash x.ep) :
    (serve x s .callback r).2 ≠ .done u c ∧ (serve x s .manage r).2 ≠ .ok := by
  have key : ∀ page a c t, r.att = some a →
      (Passkey.step x.cfg (Passkey.vacuum t s) (.attest page r.now r.t0 c r.host a r.store)).log = s.log := by
    intro page a c t ha
    rcases step_log x.cfg (Passkey.vacuum t s) (.attest page r.now r.t0 c r.host a r.store)
        with h | ⟨_, _, _, h, ho⟩ | ⟨page, now, t0, c', host, req, st, e', h', k', ck, h, ho⟩ | ⟨_, _, _, _, _, _, _, _, ho, -⟩
    · exact h
    · rcases ho with ⟨_, _, ho⟩ | ⟨_, _, _, _, _, _, _, ho⟩ <;> cases ho
    · cases ho
      have := ((register_iff ..).1 h).2.2.1.rp
      rw [hrp a ha] at this
      exact absurd ((hinj _ _ this).symm.trans hep) (hostOnly_ne _ _ _ hh hp)
    · cases ho
  constructor
  · intro hd
    have hs := shape x .callback r
    unfold serve at hd
    revert hs hd
    generalize plan x .callback r = q
    intro hd hs
    cases hs with
    | reply _ f hf _ _ =>
      have he : f s = .done u c := hd
      have := hf s
      rw [he] at this
      exact this.elim
    | junk => cases hd
    | asrtOptions _ _ _ hg' => rw [hg] at hg'; exact absurd hg' (by decide +kernel)
    | attOptions _ _ _ _ _ hg' => rw [hg] at hg'; exact absurd hg' (by decide +kernel)
    | check _ _ _ _ _ hg' => rw [hg] at hg'; exact absurd hg' (by decide +kernel)
    | add u' m c' a ht hc hal ha _ =>
      dsimp only at hd
      unfold addAnswer at hd
      rw [newest_same (s := Passkey.vacuum r.t0 s) (key .first a c' r.t0 ha)] at hd
      cases hd
  · intro hd
    have hs := shape x .manage r
    unfold serve at hd
    revert hs hd
    generalize plan x .manage r = q
    intro hd hs
    cases hs with
    | reply _ f hf _ _ =>
      have he : f s = .ok := hd
      have := hf s
      rw [he] at this
      exact this.elim
    | junk => cases hd
    | manageOptions _ _ _ hg' => rw [hg] at hg'; exact absurd hg' (by decide +kernel)
    | manageDelete _ _ _ _ _ _ hg' => rw [hg] at hg'; exact absurd hg' (by decide +kernel)
    | manageAdd c' a hc hm ha _ =>
      dsimp only at hd
      unfold manageAnswer at hd
      rw [newest_same (s := Passkey.vacuum r.t0 s) (key .manage a c' r.t0 ha)] at hd
      cases hd

/-! ## C131 -/

/-- The `Host` that browsers send for a URL with the host `h` and the port `p`, if there is one: the host in the
canonical form `asc` (lower case, IDNA), and the port if it is not the usual one. -/
def Spec.browserHost (asc : Str → Str) (h p : Str) : Str :=
  if p = [] ∨ p = "443".toList then asc h else asc h ++ ':' :: p

theorem browserHost_split (asc : Str → Str) (hasc : ∀ h, ':' ∉ h → ':' ∉ asc h) (h p : Str) (hh : ':' ∉ h)
    (hp : ':' ∉ p) : hostOnly (Spec.browserHost asc h p) = asc h ∧
      portOf (Spec.browserHost asc h p) = if p = "443".toList then [] else p := by
  unfold Spec.browserHost
  split
  · rename_i hc
    obtain ⟨h1, h2⟩ := host_plain (asc h) (hasc h hh)
    refine ⟨h1, ?_⟩
    rw [h2]
    rcases hc with rfl | rfl
    · rw [if_neg (by decide +kernel)]
    · rw [if_pos rfl]
  · rename_i hc
    obtain ⟨h1, h2⟩ := host_join (asc h) p (hasc h hh) hp
    refine ⟨h1, ?_⟩
    rw [h2, if_neg (fun h => hc (.inr h))]

/-- The page with the keys is refused only for a moment: which host it is asked on. -/
theorem manage_elsewhere (x : Site) (s : State) (r : Req) (host : Str) :
    (serve x s .manage r).2 = .elsewhere host ↔ epHost x.ep r.host ≠ r.host ∧ host = epHost x.ep r.host := by
  constructor
  · intro he
    have hne : epHost x.ep r.host ≠ r.host := by
      have hs := shape x .manage r
      unfold serve at he
      revert hs he
      generalize plan x .manage r = q
      intro he hs
      cases hs with
      | reply _ f _ _ hl => exact hl s host he
      | junk => cases he
      | manageOptions =>
        have he : attAnswer _ _ _ _ = .elsewhere host := he
        unfold attAnswer at he
        split at he <;> cases he
      | manageAdd =>
        have he : manageAnswer _ _ _ = .elsewhere host := he
        unfold manageAnswer at he
        split at he
        · split at he <;> cases he
        · cases he
      | manageDelete => cases he
    refine ⟨hne, ?_⟩
    have hp : plan x .manage r = .reply fun _ => .elsewhere (epHost x.ep r.host) := by
      show manage x r = _
      unfold manage
      rw [if_pos hne]
    unfold serve at he
    rw [hp] at he
    cases he
    rfl
  · rintro ⟨hne, rfl⟩
    have hp : plan x .manage r = .reply fun _ => .elsewhere (epHost x.ep r.host) := by
      show manage x r = _
      unfold manage
      rw [if_pos hne]
    unfold serve
    rw [hp]

/-- C131 (reachable), as far as it holds. If the host of the endpoint is written in the canonical form, a browser that
follows the redirect of the management page is not redirected again. What is missing: endpoints in another form. -/
theorem manage_reachable_partial (x : Site) (asc : Str → Str) (hasc : ∀ h, ':' ∉ h → ':' ∉ asc h)
    (hep : ':' ∉ hostOnly x.ep) (hcan : asc (hostOnly x.ep) = hostOnly x.ep) (h p : Str) (hh : ':' ∉ h) (hp : ':' ∉ p)
    (s s' : State) (r r' : Req) (hr : r.host = Spec.browserHost asc h p) (host : Str)
    (h1 : (serve x s .manage r).2 = .elsewhere host)
    (hr' : r'.host = Spec.browserHost asc (hostOnly host) (portOf host)) (host' : Str) :
    (serve x s' .manage r').2 ≠ .elsewhere host' := by
  obtain ⟨-, rfl⟩ := (manage_elsewhere ..).1 h1
  intro h2
  obtain ⟨hne, -⟩ := (manage_elsewhere ..).1 h2
  apply hne
  obtain ⟨-, hpo⟩ := browserHost_split asc hasc h p hh hp
  have hpc : ':' ∉ portOf r.host := by
    rw [hr, hpo]
    split
    · exact fun h => (nomatch h)
    · exact hp
  have hp443 : portOf r.host ≠ "443".toList := by
    rw [hr, hpo]
    split
    · decide +kernel
    · assumption
  have e1 : hostOnly (epHost x.ep r.host) = hostOnly x.ep ∧ portOf (epHost x.ep r.host) = portOf r.host := by
    unfold epHost
    split
    · exact host_join _ _ hep hpc
    · rename_i hn
      rw [Decidable.not_not.1 hn]
      exact host_plain _ hep
  rw [e1.1, e1.2] at hr'
  have e2 := browserHost_split asc hasc (hostOnly x.ep) (portOf r.host) hep hpc
  rw [← hr', if_neg hp443] at e2
  unfold epHost
  rw [e2.2]
  rw [hr']
  unfold Spec.browserHost
  rw [hcan]
  by_cases hn : portOf r.host = []
  · rw [if_neg (fun h => h hn), if_pos (.inl hn)]
  · rw [if_pos hn, if_neg (fun h => h.elim hn hp443)]

/-- C131 (violation). If it is written in another form, with a capital letter for instance, then every request of every
browser for the page is redirected: nobody can manage their keys. -/
theorem manage_unreachable (x : Site) (asc : Str → Str) (hasc : ∀ h, ':' ∉ h → ':' ∉ asc h)
    (hid : ∀ h, asc (asc h) = asc h) (hep : ':' ∉ hostOnly x.ep) (hcan : asc (hostOnly x.ep) ≠ hostOnly x.ep)
    (h p : Str) (hh : ':' ∉ h) (hp : ':' ∉ p) (s : State) (r : Req) (hr : r.host = Spec.browserHost asc h p) :
    ∃ host, (serve x s .manage r).2 = .elsewhere host := by
  refine ⟨_, (manage_elsewhere ..).2 ⟨?_, rfl⟩⟩
  intro he
  obtain ⟨hho, hpo⟩ := browserHost_split asc hasc h p hh hp
  have hpc : ':' ∉ portOf r.host := by
    rw [hr, hpo]
    split
    · exact fun h => (nomatch h)
    · exact hp
  have e1 : hostOnly (epHost x.ep r.host) = hostOnly x.ep := by
    unfold epHost
    split
    · exact (host_join _ _ hep hpc).1
    · exact (host_plain _ hep).1
  rw [he, hr, hho] at e1
  apply hcan
  rw [← e1, hid]

/-! ## Examples -/

namespace Ex

def site (ep : String) : Site where
  ep := ep.toList
  rpHash s := s.length
  hhash s := s.length + 1000
  allowed e := e = "ann@example.com".toList
  refresh := 86400
  verify pub _ sig := pub = sig

def page : Url := ⟨"app.example.com".toList, "/x".toList⟩

def host : Str := "login.example.com".toList

def ann : Claims := ⟨some "1".toList, some "ann@example.com".toList, some 1000, none, none, true, 0⟩

def post (get : String) : Req :=
  { method := "POST".toList, csrf := "1".toList, get := get.toList, host := host, redirect := "t".toList
    tok := some (page, none), cookie := some ann, t0 := 1000, now := 1000 }

def data (typ chal : Nat) : Passkey.Data := ⟨typ, chal, "https://login.example.com".toList, 17, true, true⟩

/-- Get options and register the first key. -/
def options : Req := { post "AttestationOptions" with chal := 5, uid := 9 }
def addKey : Req := { post "AddKey" with att := some ⟨data 0 5, some (70, 71)⟩ }

def x := site "login.example.com"

def s1 : State := (serve x Passkey.init .callback options).1
def s2 : State := (serve x s1 .callback addKey).1

example : (serve x Passkey.init .callback options).2 = .attestation "login.example.com".toList "ann@example.com".toList [] := by
  decide +kernel

example : (serve x s1 .callback addKey).2 = .done page { ann with passkey := some 70 } := by decide +kernel

/-- The same requests without the header, or with GET, do nothing. -/
example : (serve x s1 .callback { addKey with csrf := [] }).2 = .error 400 ∧
    (serve x s1 .callback { addKey with method := "GET".toList }).2 = .error 400 ∧
    ¬ Spec.Own { addKey with csrf := [] } ∧ Spec.Own addKey := by decide +kernel

/-- Log in with the key. -/
def asrtOptions : Req := { post "AssertionOptions" with loginId := "ann@example.com".toList, chal := 6, cookie := none }
def check : Req :=
  { post "Check" with asrt := some ⟨data 1 6, some 9, [], 70, 71⟩, cookie := none }

def s3 : State := (serve x s2 .callback asrtOptions).1

example : (serve x s2 .callback asrtOptions).2 = .assertion [70] false := by decide +kernel
example : (serve x s2 .callback { asrtOptions with loginId := "bob@example.com".toList }).2 = .assertion [] true := by
  decide +kernel
example : (serve x s3 .callback check).2 = .done page { ann with passkey := some 70 } := by decide +kernel

/-- After a day the identity has to be refreshed. -/
example : (serve x s3 .callback { check with now := 90000 }).2 = .refresh host "ann@example.com".toList := by decide +kernel

/-- Another key, and its deletion. -/
def session : Claims := { ann with passkey := some 70, hhash := some 1017 }
def options2 : Req := { post "AttestationOptions" with ctx := some session, chal := 7 }
def addKey2 : Req := { post "AddKey" with ctx := some session, att := some ⟨data 0 7, some (80, 81)⟩ }
def delKey : Req := { post "DeleteKey" with ctx := some session, id := some 80 }

def s4 : State := (serve x s2 .manage options2).1
def s5 : State := (serve x s4 .manage addKey2).1

example : (serve x s2 .manage options2).2 = .attestation "login.example.com".toList "ann@example.com".toList [70] := by
  decide +kernel
example : (serve x s4 .manage addKey2).2 = .ok ∧ (serve x s4 .manage { addKey2 with store := .fails }).2 = .error 500 := by
  decide +kernel
example : (serve x s5 .manage delKey).2 = .ok ∧
    (userKeys (serve x s5 .manage delKey).1.disk "ann@example.com".toList).map (·.id) = [70] ∧
    (serve x s5 .manage { delKey with id := some 70 }).2 = .error 400 := by decide +kernel
example : (serve x s5 .manage { host := host, ctx := some session, now := 1000 }).2 =
    .keysPage "ann@example.com".toList [70, 80] 70 true := by decide +kernel
example : (serve x s5 .callback { post "RegisterNewID" with method := "GET".toList, csrf := [] }).2 =
    .loginPage "RegisterNewID".toList "ann@example.com".toList page true true true := by decide +kernel
example : (serve x s2 .callback { host := host, nonce := some (page, "ann@example.com".toList) }).2 =
    .exchanged page "ann@example.com".toList ∧
    (serve x s2 .callback { post "AddKey" with cookie := none }).2 = .error 500 ∧
    (serve x s2 .callback { post "AddKey" with redirect := [] }).2 = .error 400 := by decide +kernel
example : Spec.FromPage check page := ⟨by decide +kernel, rfl, by decide, none, rfl⟩

end Ex

/-- C130 (login page). Whoever was asked to log in with a passkey gets a page for it that names the page they wanted to
see, and the address that they logged in with before. -/
theorem login_page (x : Site) (s : State) (r : Req) (u : Url) (m : Option Str)
    (hn : r.nonce = none) (hr : r.redirect ≠ []) (ht : r.tok = some (u, m)) (hg : r.get = "Login".toList) :
    serve x s .callback r = (s, .loginPage "Login".toList (m.getD []) u false false true) := by
  have h1 : callback x r = loginPage x r u m := by
    unfold callback
    rw [hn]
    dsimp only
    rw [if_neg (by rw [hg]; decide +kernel), if_neg hr, ht]
    dsimp only
    unfold withoutCookie
    have hcb : callbackModes x r u m = loginPage x r u m := by
      unfold callbackModes
      rw [if_pos (.inl hg)]
    split
    · rw [if_neg (by rw [hg]; decide +kernel), if_neg (by rw [hg]; decide +kernel),
        if_neg (by rw [hg]; decide +kernel), hcb]
    · exact hcb
  have h2 : loginPage x r u m = .reply fun _ => .loginPage r.get (m.getD []) u false false true := by
    unfold loginPage
    rw [if_neg (by rw [hg]; decide +kernel)]
  show (match callback x r with | .reply f => (s, f s) | .call none op answer => _ | .call (some t) op answer => _) = _
  rw [h1, h2, hg]

/-- C130 (other provider). Without a login at the other provider, users who want to log in there again are sent there with
the address that their login token names, or if it has none, the one that they typed in; users who want to register are
asked to choose an account. -/
theorem other_login (x : Site) (s : State) (r : Req) (u : Url) (m : Option Str)
    (hn : r.nonce = none) (hr : r.redirect ≠ []) (ht : r.tok = some (u, m)) (hc : r.cookie = none) :
    (r.get = "RefreshID".toList → ∃ e, serve x s .callback r = (s, .otherLogin (some e) false) ∧
      (∀ a, m = some a → a ≠ [] → e = a) ∧ ((m = none ∨ m = some []) → e = r.email)) ∧
    (r.get = "RegisterNewID".toList → serve x s .callback r = (s, .otherLogin none true)) := by
  constructor
  · intro hg
    have h1 : callback x r = .reply fun _ => .otherLogin (some (if m.getD [] = [] then r.email else m.getD [])) false := by
      unfold callback
      rw [hn]
      dsimp only
      rw [if_neg (by rw [hg]; decide +kernel), if_neg hr, ht]
      dsimp only
      unfold withoutCookie
      rw [if_pos hc, if_pos hg]
    refine ⟨if m.getD [] = [] then r.email else m.getD [], ?_, ?_, ?_⟩
    · show (match callback x r with | .reply f => (s, f s) | .call none op answer => _ | .call (some t) op answer => _) = _
      rw [h1]
    · intro a ha hne
      rw [ha, Option.getD_some, if_neg hne]
    · rintro (h | h) <;> rw [h] <;> rfl
  · intro hg
    have h1 : callback x r = .reply fun _ => .otherLogin none true := by
      unfold callback
      rw [hn]
      dsimp only
      rw [if_neg (by rw [hg]; decide +kernel), if_neg hr, ht]
      dsimp only
      unfold withoutCookie
      rw [if_pos hc, if_neg (by rw [hg]; decide +kernel), if_pos hg]
    show (match callback x r with | .reply f => (s, f s) | .call none op answer => _ | .call (some t) op answer => _) = _
    rw [h1]

/-- C130 (registration page). A user who wants to register, or to log in again elsewhere, is told that they have registered exactly if they have a key,
and that they may exactly if they are allowed to. -/
theorem register_page_true (x : Site) (s : State) (r : Req) (u : Url) (m : Option Str) (c : Claims)
    (hn : r.nonce = none) (hr : r.redirect ≠ []) (ht : r.tok = some (u, m)) (hc : r.cookie = some c)
    (hg : r.get = "RegisterNewID".toList ∨ r.get = "RefreshID".toList) :
    ∃ reg, serve x s .callback r = (s, .loginPage r.get (c.email.getD []) u (x.allowed (c.email.getD [])) reg true) ∧
      (reg = true ↔ ∃ h v k, Assoc.get s.db.subjects (c.email.getD []) = some h ∧ Assoc.get s.db.handles h = some v ∧
        k ∈ v.keys) := by
  refine ⟨isRegistered s.db (c.email.getD []), ?_, ?_⟩
  · have h1 : callback x r = loginPage x r u m := by
      unfold callback
      rw [hn]
      dsimp only
      rw [if_neg (by rcases hg with hg | hg <;> rw [hg] <;> decide +kernel), if_neg hr, ht]
      dsimp only
      unfold withoutCookie
      rw [if_neg (by rw [hc]; exact fun h => nomatch h)]
      unfold callbackModes
      rw [if_pos (.inr hg)]
    have h2 : loginPage x r u m = .reply fun s =>
        .loginPage r.get (c.email.getD []) u (x.allowed (c.email.getD [])) (isRegistered s.db (c.email.getD [])) true := by
      unfold loginPage
      rw [if_pos hg, hc]
    show (match callback x r with | .reply f => (s, f s) | .call none op answer => _ | .call (some t) op answer => _) = _
    rw [h1, h2]
  · unfold isRegistered userKeys
    constructor
    · intro h
      cases hs : Assoc.get s.db.subjects (c.email.getD []) with
      | none => simp [hs] at h
      | some i =>
        rw [hs] at h
        cases hh : Assoc.get s.db.handles i with
        | none => simp [hh] at h
        | some v =>
          simp only [hh, decide_eq_true_eq] at h
          obtain ⟨k, hk⟩ := List.exists_mem_of_length_pos h
          exact ⟨i, v, k, rfl, hh, hk⟩
    · rintro ⟨h, v, k, h1, h2, hk⟩
      rw [h1]
      simp only [h2, decide_eq_true_eq]
      exact List.length_pos_of_mem hk

example : (serve Ex.x Ex.s2 .callback { Ex.post "RegisterNewID" with method := "GET".toList, csrf := [] }).2 =
    .loginPage "RegisterNewID".toList "ann@example.com".toList Ex.page true true true ∧
    (serve Ex.x Passkey.init .callback { Ex.post "RegisterNewID" with method := "GET".toList, csrf := [] }).2 =
    .loginPage "RegisterNewID".toList "ann@example.com".toList Ex.page true false true := by decide +kernel

-- the pages for logging in, here and elsewhere
example : (serve Ex.x Ex.s2 .callback { Ex.post "Login" with method := "GET".toList, csrf := [] }).2 =
    .loginPage "Login".toList [] Ex.page false false true ∧
    (serve Ex.x Ex.s2 .callback { Ex.post "RefreshID" with cookie := none, email := "bob@example.com".toList }).2 =
    .otherLogin (some "bob@example.com".toList) false ∧
    (serve Ex.x Ex.s2 .callback { Ex.post "RefreshID" with
      cookie := none, email := "bob@example.com".toList, tok := some (Ex.page, some "ann@example.com".toList) }).2 =
    .otherLogin (some "ann@example.com".toList) false ∧
    (serve Ex.x Ex.s2 .callback { Ex.post "RegisterNewID" with cookie := none }).2 = .otherLogin none true := by
  decide +kernel

/-- C130 (violation). When the storage fails, the user is told that the key is deleted although it is still there, and
logs in again. -/
theorem delete_answer_violated : ∃ x s r k, r.get = "DeleteKey".toList ∧ (serve x s .manage r).2 = .ok ∧
    r.id = some k.id ∧ ∃ c, r.ctx = some c ∧ Spec.Stored (serve x s .manage r).1 (c.email.getD []) k := by
  refine ⟨Ex.x, Ex.s5, { Ex.delKey with store := .fails }, ⟨80, 81, 17⟩, rfl, by decide +kernel, rfl, Ex.session, rfl, 9,
    ⟨[⟨70, 71, 17⟩, ⟨80, 81, 17⟩], Ex.ann⟩, by decide +kernel, by decide +kernel, by decide⟩

/-- C132 (violation). With an endpoint on another port, a browser that does everything right cannot register a key: the
name of the site in the options has the port. -/
theorem registration_violated : ∃ x s r u c a, Spec.FromPage r u ∧ r.get = "AddKey".toList ∧ r.cookie = some c ∧
    x.allowed (c.email.getD []) = true ∧ r.att = some a ∧ epHost x.ep r.host = r.host ∧
    (serve x Passkey.init .callback { r with get := "AttestationOptions".toList }) =
      (s, .attestation x.ep (c.email.getD []) []) ∧
    a.data.rp = x.rpHash x.ep ∧ (serve x s .callback r).2 = .error 500 := by
  refine ⟨Ex.site "login.example.com:8443", _,
    { Ex.addKey with host := "login.example.com:8443".toList, chal := 5, uid := 9
                     att := some ⟨⟨0, 5, "https://login.example.com:8443".toList, 22, true, true⟩, some (70, 71)⟩ },
    Ex.page, Ex.ann, _, ⟨by decide +kernel, rfl, by decide, none, rfl⟩, rfl, rfl, by decide +kernel, rfl,
    by decide +kernel, Prod.ext rfl (by decide +kernel), by decide +kernel, by decide +kernel⟩

/-- C131 (violation), an example: the endpoint "Login.example.com". -/
theorem manage_reachable_violated : ∃ x, ∀ h p s r, ':' ∉ h → ':' ∉ p →
    r.host = Spec.browserHost (List.map Char.toLower) h p → ∃ host, (serve x s .manage r).2 = .elsewhere host := by
  have hup : ∀ c : Char, c.toLower = c ∨ (97 ≤ c.toLower.val.toNat ∧ c.toLower.val.toNat ≤ 122) := by
    intro c
    unfold Char.toLower
    split
    · rename_i hx
      right
      have h1 : 65 ≤ c.val.toNat := UInt32.le_iff_toNat_le.1 hx.1
      have h2 : c.val.toNat ≤ 90 := UInt32.le_iff_toNat_le.1 hx.2
      have h3 : (c.val + ('a'.val - 'A'.val)).toNat = c.val.toNat + 32 := by
        rw [UInt32.toNat_add]
        exact Nat.mod_eq_of_lt (Nat.lt_of_le_of_lt (Nat.add_le_add_right h2 32) (by decide))
      show 97 ≤ (c.val + ('a'.val - 'A'.val)).toNat ∧ (c.val + ('a'.val - 'A'.val)).toNat ≤ 122
      rw [h3]
      omega
    · exact .inl rfl
  have hfix : ∀ c : Char, c.toLower.toLower = c.toLower := by
    intro c
    rcases hup c with h | ⟨h1, h2⟩
    · rw [h, h]
    · generalize c.toLower = d at h1 h2
      unfold Char.toLower
      rw [dif_neg]
      rintro ⟨-, h3⟩
      have : d.val.toNat ≤ 90 := UInt32.le_iff_toNat_le.1 h3
      omega
  refine ⟨Ex.site "Login.example.com", fun h p s r hh hp hr =>
    manage_unreachable _ (List.map Char.toLower) ?_ ?_ (by decide +kernel) (by decide +kernel) h p hh hp s r hr⟩
  · intro h hh hm
    obtain ⟨c, h1, h2⟩ := List.mem_map.1 hm
    rcases hup c with h3 | ⟨h3, -⟩
    · rw [h3] at h2
      exact hh (h2 ▸ h1)
    · rw [h2] at h3
      exact absurd h3 (by decide)
  · intro h
    rw [List.map_map]
    exact List.map_congr_left fun c _ => hfix c

/-- A browser at the right host, and one that is redirected there once. -/
example : (serve Ex.x Ex.s2 .manage { host := Ex.host }).2 = .askLogin none ∧
    (serve Ex.x Ex.s2 .manage { host := "app.example.com:8443".toList }).2 =
      .elsewhere "login.example.com:8443".toList ∧
    (serve Ex.x Ex.s2 .manage { host := "login.example.com:8443".toList }).2 = .askLogin none := by decide +kernel

/-- The answer a plan leads to. -/
def Plan.answer (x : Site) (s : State) : Plan → Resp
  | .reply f => f s
  | .call none op answer => answer s (Passkey.step x.cfg s op)
  | .call (some t) op answer => answer (Passkey.vacuum t s) (Passkey.step x.cfg (Passkey.vacuum t s) op)

theorem serve_answer (x : Site) (s : State) (h : Handler) (r : Req) :
    (serve x s h r).2 = (plan x h r).answer x s := by
  unfold serve
  split <;> rename_i e <;> rw [e] <;> rfl

theorem guarded_answer (x : Site) (s : State) (r : Req) (p : Plan) (hint : Option Str)
    (hp : p.answer x s ≠ .askLogin hint) : (guarded r p).answer x s ≠ .askLogin hint := by
  unfold guarded
  split
  · exact fun h => (nomatch h)
  · split
    · exact fun h => (nomatch h)
    · exact hp

theorem manageModes_answer (x : Site) (s : State) (r : Req) (c : Claims) (pk : Nat) (hint : Option Str) :
    (manageModes x r c pk).answer x s ≠ .askLogin hint := by
  unfold manageModes
  split
  · refine guarded_answer _ _ _ _ _ ?_
    show attAnswer _ _ _ _ ≠ _
    unfold attAnswer
    split <;> exact fun h => (nomatch h)
  · split
    · refine guarded_answer _ _ _ _ _ ?_
      split
      · exact fun h => (nomatch h)
      · show manageAnswer _ _ _ ≠ _
        unfold manageAnswer
        split
        · split <;> exact fun h => (nomatch h)
        · exact fun h => (nomatch h)
    · split
      · refine guarded_answer _ _ _ _ _ ?_
        split
        · exact fun h => (nomatch h)
        · split <;> exact fun h => (nomatch h)
      · split
        · exact fun h => (nomatch h)
        · split <;> exact fun h => (nomatch h)

/-- C130 (page of keys). Exactly who comes to the right host without a login, or with one that is for another host or
older than ten minutes, is asked to log in: as the user they are logged in as, or as nobody in particular. -/
theorem manage_hint (x : Site) (s : State) (r : Req) (hint : Option Str) :
    (serve x s .manage r).2 = .askLogin hint ↔ epHost x.ep r.host = r.host ∧
      (r.ctx = none ∧ hint = none ∨ ∃ c, r.ctx = some c ∧ hint = some (c.email.getD []) ∧
        ¬ (c.hhash = some (x.hhash r.host) ∧ ∃ i, c.iat = some i ∧ r.now ≤ i + 600)) := by
  rw [serve_answer]
  have hp : plan x .manage r = manage x r := rfl
  rw [hp]
  unfold manage
  by_cases hh : epHost x.ep r.host = r.host
  · rw [if_neg (fun hn => hn hh)]
    cases hc : r.ctx with
    | none =>
      constructor
      · intro h
        cases h
        exact ⟨hh, .inl ⟨rfl, rfl⟩⟩
      · rintro ⟨-, ⟨-, rfl⟩ | ⟨c, h, -⟩⟩
        · rfl
        · cases h
    | some c =>
      have hr : recentHere x r c = true ↔
          (c.hhash = some (x.hhash r.host) ∧ ∃ i, c.iat = some i ∧ r.now ≤ i + 600) := by
        unfold recentHere
        rw [Bool.and_eq_true, decide_eq_true_iff]
        refine and_congr_right fun _ => ?_
        cases c.iat <;> simp
      dsimp only
      by_cases hq : recentHere x r c = true
      · rw [if_neg (fun hn => hn hq)]
        constructor
        · intro h
          split at h
          · cases h
          · exact absurd h (manageModes_answer _ _ _ _ _ _)
        · rintro ⟨-, ⟨h, -⟩ | ⟨c', h, -, hn⟩⟩
          · cases h
          · cases h
            exact absurd (hr.1 hq) hn
      · rw [if_pos hq]
        constructor
        · intro h
          cases h
          exact ⟨hh, .inr ⟨c, rfl, rfl, fun hn => hq (hr.2 hn)⟩⟩
        · rintro ⟨-, ⟨h, -⟩ | ⟨c', h, rfl, -⟩⟩
          · cases h
          · cases h
            rfl
  · rw [if_pos hh]
    exact ⟨fun h => (nomatch h), fun h => absurd h.1 hh⟩

/-- C130 (page of keys). Who logged in here with a passkey in the last ten minutes gets, without a mode, the page with the
keys of exactly their account, the script if they ask for it, and an error for a mode that does not exist. -/
theorem keys_page (x : Site) (s : State) (r : Req) (c : Claims) (pk i : Nat) (hh : epHost x.ep r.host = r.host)
    (hc : r.ctx = some c) (hb : c.hhash = some (x.hhash r.host)) (hi : c.iat = some i) (ht : r.now ≤ i + 600)
    (hp : c.passkey = some pk) :
    (r.get = [] → serve x s .manage r =
      (s, .keysPage (c.email.getD []) ((userKeys s.db (c.email.getD [])).map (·.id)) pk true)) ∧
    (r.get = "JS".toList → serve x s .manage r = (s, .script)) ∧
    (r.get ∉ ["AttestationOptions".toList, "AddKey".toList, "DeleteKey".toList, "JS".toList, []] →
      serve x s .manage r = (s, .error 400)) := by
  have hpl : plan x .manage r = manageModes x r c pk := by
    show manage x r = _
    unfold manage
    rw [if_neg (fun h => h hh), hc]
    dsimp only
    have hr : recentHere x r c = true := by
      unfold recentHere
      rw [hb, hi]
      simp [ht]
    rw [if_neg (fun h => h hr), hp]
  unfold serve
  rw [hpl]
  unfold manageModes
  refine ⟨fun hg => ?_, fun hg => ?_, fun hg => ?_⟩
  · rw [hg, if_neg (by decide +kernel), if_neg (by decide +kernel), if_neg (by decide +kernel), if_neg (by decide +kernel),
      if_pos rfl]
  · rw [hg, if_neg (by decide +kernel), if_neg (by decide +kernel), if_neg (by decide +kernel), if_pos rfl]
  · simp only [List.mem_cons, List.not_mem_nil, or_false, not_or] at hg
    obtain ⟨h1, h2, h3, h4, h5⟩ := hg
    rw [if_neg h1, if_neg h2, if_neg h3, if_neg h4, if_neg h5]

-- the page, the script, and a mode that does not exist; the hypotheses are those of the theorem
example : (serve Ex.x Ex.s2 .manage { host := Ex.host, ctx := some Ex.session, now := 1000, get := "JS".toList }).2 = .script ∧
    (serve Ex.x Ex.s2 .manage { host := Ex.host, ctx := some Ex.session, now := 1000, get := "Keys".toList }).2 = .error 400 ∧
    epHost Ex.x.ep Ex.host = Ex.host ∧ Ex.session.hhash = some (Ex.x.hhash Ex.host) := by
  decide +kernel

end Verif.Ceremony
