import Verif.Model.Oidc
import Verif.Props.Token

/-!
# C54-C59: OpenID Connect

All statements are about the log of what the outside world sees after an arbitrary sequence of
critical sections of arbitrarily interleaved requests.
-/

namespace Verif.Oidc

open Verif.Token (Str)

/-! ## Tables -/

theorem Tbl.get_mem {α : Type} {t : Tbl α} {k : Nat} {v : α} (h : t.get k = some v) :
    (k, v) ∈ t := by
  unfold Tbl.get at h
  induction t with
  | nil => simp at h
  | cons a t ih =>
    obtain ⟨x, y⟩ := a
    rw [List.lookup_cons] at h
    split at h
    · rename_i he
      simp only [beq_iff_eq] at he
      simp only [Option.some.injEq] at h
      subst he h
      exact List.mem_cons_self
    · exact List.mem_cons_of_mem _ (ih h)

theorem Tbl.mem_del {α : Type} {t : Tbl α} {k : Nat} {x : Nat × α} :
    x ∈ Tbl.del t k ↔ x ∈ t ∧ x.1 ≠ k := by
  unfold Tbl.del
  rw [List.mem_filter]
  simp

theorem Tbl.mem_put {α : Type} {t : Tbl α} {k : Nat} {v : α} {x : Nat × α}
    (h : x ∈ Tbl.put t k v) : x = (k, v) ∨ (x ∈ t ∧ x.1 ≠ k) := by
  unfold Tbl.put at h
  rcases List.mem_cons.1 h with h | h
  · exact Or.inl h
  · exact Or.inr (Tbl.mem_del.1 h)

/-! ## The client -/

namespace Client

/-- What must hold of the earlier log `l` when event `e` happens. -/
def Cond : Event → List Event → Prop
  | .requested .., _ => True
  | .began _ m c tb, l =>
    c = some m ∧ (∃ u h t0, Event.requested m u h t0 ∈ l ∧ tb ≤ t0 + 300) ∧
      ∀ th' c' t', Event.began th' m c' t' ∉ l
  | .login th n _ _ host url, l =>
    (∃ m tb, Event.began th m (some m) tb ∈ l) ∧
    (∃ t, Event.requested n url host t ∈ l) ∧
    ∀ th' s e h u, Event.login th' n s e h u ∉ l

def LogOk : List Event → Prop
  | [] => True
  | e :: l => Cond e l ∧ LogOk l

theorem logOk_split {e : Event} {l1 l2 : List Event} (h : LogOk (l1 ++ e :: l2)) : Cond e l2 := by
  induction l1 with
  | nil => exact h.1
  | cons a l ih => exact ih h.2

theorem logOk_suffix {l1 l2 : List Event} (h : LogOk (l1 ++ l2)) : LogOk l2 := by
  induction l1 with
  | nil => exact h
  | cons a l ih => exact ih h.2

/-- Every started callback belongs to a request. -/
theorem began_requested {l : List Event} (h : LogOk l) {th m : Nat} {c : Option Nat} {t : Nat}
    (hm : Event.began th m c t ∈ l) : ∃ u hh t0, Event.requested m u hh t0 ∈ l := by
  obtain ⟨l1, l2, rfl⟩ := List.append_of_mem hm
  obtain ⟨-, ⟨u, hh, t0, h1, -⟩, -⟩ := logOk_split h
  exact ⟨u, hh, t0, List.mem_append_right _ (List.mem_cons_of_mem _ h1)⟩

theorem login_requested {l : List Event} (h : LogOk l) {th n : Nat} {s e hh u : Str}
    (hm : Event.login th n s e hh u ∈ l) : ∃ t, Event.requested n u hh t ∈ l := by
  obtain ⟨l1, l2, rfl⟩ := List.append_of_mem hm
  obtain ⟨-, ⟨t, h1⟩, -⟩ := logOk_split h
  exact ⟨t, List.mem_append_right _ (List.mem_cons_of_mem _ h1)⟩

structure Inv (s : State) : Prop where
  log : LogOk s.log
  requested : ∀ k p, (k, p) ∈ s.states → Event.requested k p.url p.host p.created ∈ s.log
  unseen : ∀ k p, (k, p) ∈ s.states → p.seen = false → ∀ th c t, Event.began th k c t ∉ s.log
  unused : ∀ k p, (k, p) ∈ s.states → ∀ th a e h u, Event.login th k a e h u ∉ s.log
  running : ∀ th m, (th, m) ∈ s.running → ∃ tb, Event.began th m (some m) tb ∈ s.log

theorem inv_init : Inv init :=
  ⟨trivial, by simp [init], by simp [init], by simp [init], by simp [init]⟩

/-- The states of login requests are random: never the same twice. -/
def Pre (s : State) : Op → Prop
  | .request nonce _ _ _ => ∀ u h t, Event.requested nonce u h t ∉ s.log
  | _ => True

def WF (cfg : Config) : State → List Op → Prop
  | _, [] => True
  | s, o :: os => Pre s o ∧ WF cfg (step cfg s o) os

theorem inv_vacuum {s : State} (h : Inv s) (t : Nat) :
    Inv { s with states := vacuum t s.states } := by
  have sub : ∀ x, x ∈ vacuum t s.states → x ∈ s.states := fun x hx => (List.mem_filter.1 hx).1
  exact ⟨h.log, fun k p hm => h.requested k p (sub _ hm), fun k p hm => h.unseen k p (sub _ hm),
    fun k p hm => h.unused k p (sub _ hm), h.running⟩

theorem inv_mark {s : State} (h : Inv s) {k : Nat} {p : Pending} (hk : (k, p) ∈ s.states) :
    Inv { s with states := s.states.put k { p with seen := true } } := by
  refine ⟨h.log, ?_, ?_, ?_, h.running⟩
  · intro k' p' hm
    rcases Tbl.mem_put hm with he | ⟨hm, -⟩
    · cases he; exact h.requested k p hk
    · exact h.requested _ _ hm
  · intro k' p' hm hs
    rcases Tbl.mem_put hm with he | ⟨hm, -⟩
    · cases he; simp at hs
    · exact h.unseen _ _ hm hs
  · intro k' p' hm
    rcases Tbl.mem_put hm with he | ⟨hm, -⟩
    · cases he; exact h.unused k p hk
    · exact h.unused _ _ hm

theorem inv_step (cfg : Config) {s : State} (h : Inv s) (o : Op) (hp : Pre s o) :
    Inv (step cfg s o) := by
  cases o with
  | request nonce t url host =>
    refine ⟨⟨trivial, h.log⟩, ?_, ?_, ?_, ?_⟩
    · intro k p hm
      rcases Tbl.mem_put hm with he | ⟨hm, -⟩
      · cases he; exact List.mem_cons_self
      · exact List.mem_cons_of_mem _ (h.requested _ _ hm)
    · intro k p hm hs th c t' hb
      have hb : Event.began th k c t' ∈ s.log := by
        rcases List.mem_cons.1 hb with hb | hb
        · cases hb
        · exact hb
      rcases Tbl.mem_put hm with he | ⟨hm, -⟩
      · cases he
        obtain ⟨u, hh, t0, hr⟩ := began_requested h.log hb
        exact hp u hh t0 hr
      · exact h.unseen _ _ hm hs th c t' hb
    · intro k p hm th a e hh u hb
      have hb : Event.login th k a e hh u ∈ s.log := by
        rcases List.mem_cons.1 hb with hb | hb
        · cases hb
        · exact hb
      rcases Tbl.mem_put hm with he | ⟨hm, -⟩
      · cases he
        obtain ⟨t0, hr⟩ := login_requested h.log hb
        exact hp u hh t0 hr
      · exact h.unused _ _ hm th a e hh u hb
    · intro th m hm
      obtain ⟨tb, hb⟩ := h.running th m hm
      exact ⟨tb, List.mem_cons_of_mem _ hb⟩
  | begin thread t param cookie =>
    have hv := inv_vacuum h t
    unfold step
    dsimp only
    cases hg : (vacuum t s.states).get param with
    | none => exact hv
    | some p =>
      dsimp only
      have hmem := Tbl.get_mem hg
      have hmark := inv_mark hv hmem
      split
      · exact hmark
      · rename_i hc
        simp only [ne_eq, Bool.or_eq_true, decide_eq_true_eq, not_or, Decidable.not_not,
          Bool.not_eq_true] at hc
        have hreq := hv.requested param p hmem
        have hfresh : p.created + 300 < t → False := by
          intro hlt
          have := (List.mem_filter.1 hmem).2
          simp [hlt] at this
        refine ⟨⟨⟨hc.2, ⟨p.url, p.host, p.created, hreq, Nat.le_of_not_lt hfresh⟩, ?_⟩, h.log⟩, ?_, ?_, ?_, ?_⟩
        · intro th' c' t'
          exact hv.unseen param p hmem hc.1 th' c' t'
        · intro k p' hm
          exact List.mem_cons_of_mem _ (hmark.requested k p' hm)
        · intro k p' hm hs th c t' hb
          rcases List.mem_cons.1 hb with hb | hb
          · cases hb
            rcases Tbl.mem_put hm with he | ⟨-, hne⟩
            · cases he; simp at hs
            · exact hne rfl
          · exact hmark.unseen k p' hm hs th c t' hb
        · intro k p' hm th a e hh u hb
          rcases List.mem_cons.1 hb with hb | hb
          · cases hb
          · exact hmark.unused k p' hm th a e hh u hb
        · intro th m hm
          rcases Tbl.mem_put hm with he | ⟨hm, -⟩
          · cases he
            exact ⟨t, by rw [hc.2]; exact List.mem_cons_self⟩
          · obtain ⟨tb, hb⟩ := h.running th m hm
            exact ⟨tb, List.mem_cons_of_mem _ hb⟩
  | finish thread a =>
    unfold step
    dsimp only
    cases hr : s.running.get thread with
    | none => exact h
    | some nonce =>
      dsimp only
      obtain ⟨tb, hbeg⟩ := h.running thread nonce (Tbl.get_mem hr)
      have hrun : Inv { s with running := s.running.del thread } :=
        ⟨h.log, h.requested, h.unseen, h.unused,
          fun th m hm => h.running th m (Tbl.mem_del.1 hm).1⟩
      cases hi : a.info cfg with
      | none => exact hrun
      | some i =>
        dsimp only
        cases hg : s.states.get (i.nonce.getD nonce) with
        | none => exact hrun
        | some p =>
          dsimp only
          have hmem := Tbl.get_mem hg
          have hdel : Inv { s with running := s.running.del thread,
                                   states := s.states.del (i.nonce.getD nonce) } :=
            ⟨h.log, fun k p hm => h.requested k p (Tbl.mem_del.1 hm).1,
              fun k p hm => h.unseen k p (Tbl.mem_del.1 hm).1,
              fun k p hm => h.unused k p (Tbl.mem_del.1 hm).1, hrun.running⟩
          split
          · refine ⟨⟨⟨⟨nonce, tb, hbeg⟩, ⟨p.created, h.requested _ p hmem⟩, ?_⟩, h.log⟩,
              ?_, ?_, ?_, ?_⟩
            · exact h.unused _ p hmem
            · intro k p' hm
              exact List.mem_cons_of_mem _ (hdel.requested k p' hm)
            · intro k p' hm hs th c t' hb
              rcases List.mem_cons.1 hb with hb | hb
              · cases hb
              · exact hdel.unseen k p' hm hs th c t' hb
            · intro k p' hm th a' e hh u hb
              rcases List.mem_cons.1 hb with hb | hb
              · cases hb
                exact (Tbl.mem_del.1 hm).2 rfl
              · exact hdel.unused k p' hm th a' e hh u hb
            · intro th m hm
              obtain ⟨tb, hb⟩ := hdel.running th m hm
              exact ⟨tb, List.mem_cons_of_mem _ hb⟩
          · exact hdel

theorem inv_run (cfg : Config) (os : List Op) {s : State} (h : Inv s) (hw : WF cfg s os) :
    Inv (run cfg os s) := by
  induction os generalizing s with
  | nil => exact h
  | cons o os ih => exact ih (inv_step cfg h o hw.1) hw.2

/-- C54, what holds whatever the identity provider answers. Consider any login in any execution.
Before it, the callback that led to it (same thread) passed the state check with a state `m` that
was equal to the browser's cookie, had been created by a login request of this proxy at most five
minutes before, and had not been used by any earlier callback. The user is redirected to the URL,
and the cookie is for the host, of a login request of this proxy, and no other login ever uses
that request. -/
theorem login_sound (cfg : Config) (os : List Op) (hw : WF cfg init os) (l1 l2 : List Event)
    (th n : Nat) (sub email host url : Str)
    (h : (run cfg os init).log = l1 ++ Event.login th n sub email host url :: l2) :
    (∃ m tb u hh t0 l3 l4, l2 = l3 ++ Event.began th m (some m) tb :: l4 ∧
      Event.requested m u hh t0 ∈ l4 ∧ tb ≤ t0 + 300 ∧
      ∀ th' c' t', Event.began th' m c' t' ∉ l4) ∧
    (∃ t, Event.requested n url host t ∈ l2) ∧
    (∀ th' s e hh u, Event.login th' n s e hh u ∉ l1 ++ l2) := by
  have hi := inv_run cfg os inv_init hw
  have hlog := hi.log
  rw [h] at hlog
  obtain ⟨⟨m, tb, hb⟩, hreq, huniq⟩ := logOk_split hlog
  refine ⟨?_, hreq, ?_⟩
  · obtain ⟨l3, l4, rfl⟩ := List.append_of_mem hb
    have h2 : LogOk (l3 ++ Event.began th m (some m) tb :: l4) := by
      have := logOk_suffix hlog
      exact this.2
    obtain ⟨-, ⟨u, hh, t0, h3, h4⟩, h5⟩ := logOk_split h2
    exact ⟨m, tb, u, hh, t0, l3, l4, rfl, h3, h4, h5⟩
  · intro th' s e hh u hm
    rcases List.mem_append.1 hm with hm | hm
    · obtain ⟨a, b, rfl⟩ := List.append_of_mem hm
      rw [List.append_assoc, List.cons_append] at hlog
      obtain ⟨-, -, hno⟩ := logOk_split hlog
      exact hno th sub email host url (List.mem_append_right _ List.mem_cons_self)
    · exact huniq th' s e hh u hm

/-- The provider's answers carry no nonce, or the nonce of the login request whose state the
callback carries. -/
def HonestNonce (cfg : Config) : State → List Op → Prop
  | _, [] => True
  | s, o :: os =>
    (match o with
     | .finish th a => ∀ i n m, a.info cfg = some i → i.nonce = some n →
         s.running.get th = some m → n = m
     | _ => True) ∧ HonestNonce cfg (step cfg s o) os

/-- Every login uses the state its callback started with. -/
def SameNonce (l : List Event) : Prop :=
  ∀ l1 l2 th n s e h u, l = l1 ++ Event.login th n s e h u :: l2 →
    ∃ tb, Event.began th n (some n) tb ∈ l2

theorem sameNonce_cons {e : Event} {l : List Event} (h : SameNonce l)
    (he : ∀ th n s a hh u, e = Event.login th n s a hh u →
      ∃ tb, Event.began th n (some n) tb ∈ l) : SameNonce (e :: l) := by
  intro l1 l2 th n s a hh u hl
  cases l1 with
  | nil =>
    rw [List.nil_append, List.cons.injEq] at hl
    obtain ⟨h1, rfl⟩ := hl
    exact he th n s a hh u h1
  | cons x l1 =>
    rw [List.cons_append, List.cons.injEq] at hl
    exact h l1 l2 th n s a hh u hl.2

theorem sameNonce_step (cfg : Config) {s : State} (hi : Inv s) (h : SameNonce s.log) (o : Op)
    (ho : match o with
     | .finish th a => ∀ i n m, a.info cfg = some i → i.nonce = some n →
         s.running.get th = some m → n = m
     | _ => True) : SameNonce (step cfg s o).log := by
  cases o with
  | request nonce t url host =>
    exact sameNonce_cons h (fun th n s a hh u he => by cases he)
  | begin thread t param cookie =>
    unfold step
    dsimp only
    split
    · exact h
    · split
      · exact h
      · exact sameNonce_cons h (fun th n s a hh u he => by cases he)
  | finish thread a =>
    dsimp only at ho
    unfold step
    dsimp only
    cases hr : s.running.get thread with
    | none => exact h
    | some nonce =>
      dsimp only
      cases hinf : a.info cfg with
      | none => exact h
      | some i =>
        dsimp only
        cases hg : s.states.get (i.nonce.getD nonce) with
        | none => exact h
        | some p =>
          dsimp only
          split
          · apply sameNonce_cons h
            intro th n s' a' hh u he
            injection he with e1 e2
            obtain ⟨tb, hb⟩ := hi.running thread nonce (Tbl.get_mem hr)
            have hn : i.nonce.getD nonce = nonce := by
              cases hn : i.nonce with
              | none => rfl
              | some x => exact ho i x nonce hinf hn hr
            rw [hn] at e2
            subst e1 e2
            exact ⟨tb, hb⟩
          · exact h

theorem sameNonce_run (cfg : Config) (os : List Op) {s : State} (hi : Inv s)
    (h : SameNonce s.log) (hw : WF cfg s os) (hh : HonestNonce cfg s os) :
    SameNonce (run cfg os s).log := by
  induction os generalizing s with
  | nil => exact h
  | cons o os ih =>
    exact ih (inv_step cfg hi o hw.1) (sameNonce_step cfg hi h o hh.1) hw.2 hh.2

/-- C54 (partial: the provider answers with the nonce of the request whose state the callback
carries, or with none; otherwise see `login_nonce_violated`). A login happens only through a
callback whose state was created by a login request of this proxy at most five minutes earlier,
equals the browser's cookie and was not used by any callback before; the user is redirected to
the URL requested with that state, and the request leads to no other login. -/
theorem login_partial (cfg : Config) (os : List Op) (hw : WF cfg init os)
    (hh : HonestNonce cfg init os) (l1 l2 : List Event) (th n : Nat)
    (sub email host url : Str)
    (h : (run cfg os init).log = l1 ++ Event.login th n sub email host url :: l2) :
    (∃ tb t0 l3 l4, l2 = l3 ++ Event.began th n (some n) tb :: l4 ∧
      Event.requested n url host t0 ∈ l2 ∧
      (∃ u hh t1, Event.requested n u hh t1 ∈ l4 ∧ tb ≤ t1 + 300) ∧
      ∀ th' c' t', Event.began th' n c' t' ∉ l4) ∧
    (∀ th' s e hh u, Event.login th' n s e hh u ∉ l1 ++ l2) := by
  obtain ⟨-, ⟨t0, hreq⟩, huniq⟩ := login_sound cfg os hw l1 l2 th n sub email host url h
  have hi := inv_run cfg os inv_init hw
  have hs : SameNonce (run cfg os init).log := sameNonce_run cfg os inv_init
    (fun l1 l2 th n s e h u hl => by simp [init] at hl) hw hh
  obtain ⟨tb, hb⟩ := hs l1 l2 th n sub email host url h
  have hlog := hi.log
  rw [h] at hlog
  obtain ⟨l3, l4, rfl⟩ := List.append_of_mem hb
  have h2 : LogOk (l3 ++ Event.began th n (some n) tb :: l4) := (logOk_suffix hlog).2
  obtain ⟨-, ⟨u, hh', t1, h3, h4⟩, h5⟩ := logOk_split h2
  exact ⟨⟨tb, t0, l3, l4, rfl, hreq, ⟨u, hh', t1, h3, h4⟩, h5⟩, huniq⟩

namespace Ex

def cfg : Config := ⟨[], false⟩
def info : Info := ⟨"u".toList, "u@x".toList, some true, none, []⟩
def ans (i : Info) : Answer := ⟨true, some (some i), [], none⟩

/-- Two login requests, a replayed callback, and a callback with another browser's cookie. -/
def ops : List Op :=
  [ .request 7 0 "https://a/1".toList "a".toList,
    .request 8 10 "https://b/2".toList "b".toList,
    .begin 1 100 7 (some 7),
    .begin 2 101 7 (some 7),
    .begin 3 102 8 (some 7),
    .finish 2 (ans info),
    .finish 1 (ans info),
    .finish 3 (ans info) ]

end Ex

example : WF Ex.cfg init Ex.ops ∧ HonestNonce Ex.cfg init Ex.ops ∧
    (run Ex.cfg Ex.ops init).log =
      [ .login 1 7 "u".toList "u@x".toList "a".toList "https://a/1".toList,
        .began 1 7 (some 7) 100,
        .requested 8 "https://b/2".toList "b".toList 10,
        .requested 7 "https://a/1".toList "a".toList 0 ] := by
  refine ⟨?_, ?_, by decide +kernel⟩
  · simp [Ex.ops, WF, Pre, step, init]
  · simp only [Ex.ops, HonestNonce, true_and, and_true]
    refine ⟨?_, ?_, ?_⟩ <;>
    · intro i n m h1 h2
      cases h1
      cases h2

/-- C54, the missing part. The nonce of the provider's answer is not compared with the state: a
callback with state 7 and the cookie of browser 7, for which the provider answers with the nonce
of another pending login request (8), logs browser 7 in and sends it to the URL of request 8.
(PKCE, when the provider enforces it, prevents a foreign code from being redeemed.) -/
theorem login_nonce_violated :
    ∃ (os : List Op) (l2 : List Event), WF Ex.cfg init os ∧
      (run Ex.cfg os init).log =
        Event.login 1 8 "u".toList "u@x".toList "b".toList "https://b/2".toList :: l2 ∧
      Event.began 1 7 (some 7) 100 ∈ l2 ∧ ∀ th c t, Event.began th 8 c t ∉ l2 := by
  refine ⟨[ .request 7 0 "https://a/1".toList "a".toList,
    .request 8 10 "https://b/2".toList "b".toList,
    .begin 1 100 7 (some 7),
    .finish 1 (Ex.ans { Ex.info with nonce := some 8 })],
    [ .began 1 7 (some 7) 100, .requested 8 "https://b/2".toList "b".toList 10,
      .requested 7 "https://a/1".toList "a".toList 0 ], ?_, by decide +kernel, by decide, ?_⟩
  · simp [WF, Pre, step, init]
  · intro th c t hm
    simp at hm

/-! ### C55 -/

/-- Specification of an acceptable identity. -/
structure Spec.Acceptable (cfg : Config) (i : Info) : Prop where
  email : i.email ≠ []
  verified : i.emailVerified ≠ some false
  domain : cfg.hostedDomain ≠ [] →
    i.hd ≠ [] ∧ (cfg.hostedDomain = "*".toList ∨ i.hd = cfg.hostedDomain)

theorem identityOk_spec (cfg : Config) (i : Info) :
    identityOk cfg i = true ↔ Spec.Acceptable cfg i ∧ i.sub ≠ [] := by
  unfold identityOk
  simp only [Bool.and_eq_true, Bool.not_eq_true', decide_eq_false_iff_not]
  constructor
  · rintro ⟨⟨⟨h1, h2⟩, h3⟩, h4⟩
    refine ⟨⟨h1, h2, ?_⟩, h4⟩
    intro hne
    rw [if_neg hne] at h3
    simp only [ne_eq, decide_not, Bool.not_eq_true', Bool.or_eq_false_iff,
      decide_eq_false_iff_not, Bool.and_eq_false_imp, Bool.not_eq_eq_eq_not, Bool.not_true,
      Bool.not_false, decide_eq_true_eq] at h3
    refine ⟨h3.1, ?_⟩
    by_cases hs : cfg.hostedDomain = ['*']
    · exact Or.inl hs
    · exact Or.inr (h3.2 hs)
  · rintro ⟨⟨h1, h2, h3⟩, h4⟩
    refine ⟨⟨⟨h1, h2⟩, ?_⟩, h4⟩
    split
    · rfl
    · rename_i hne
      obtain ⟨h5, h6⟩ := h3 hne
      have h6 : cfg.hostedDomain = ['*'] ∨ i.hd = cfg.hostedDomain := h6
      rcases h6 with h6 | h6 <;> simp [h5, h6, hne]

/-- The userinfo endpoint can be asked: it is configured and the access token is a bearer token. -/
def Spec.mayAsk (cfg : Config) (a : Answer) : Prop :=
  cfg.userinfoEndpoint = true ∧ (a.tokenType = [] ∨ a.tokenType = ['b', 'e', 'a', 'r', 'e', 'r'])

/-- C55. In every execution, every step that issues a login cookie is the end of a callback for
which the provider returned, in the ID token or else from the userinfo endpoint (if it is
configured and the access token is of bearer type), exactly the
subject and email address of the cookie; the email is not empty and not reported as unverified,
and it has the configured hosted domain. -/
theorem login_identity (cfg : Config) (s : State) (o : Op) (th n : Nat)
    (sub email host url : Str)
    (h : (step cfg s o).log = Event.login th n sub email host url :: s.log) :
    ∃ a i, o = .finish th a ∧ a.tokenOk = true ∧
      (a.idToken = some (some i) ∨ (a.idToken = none ∧ Spec.mayAsk cfg a ∧ a.userinfo = some i)) ∧
      i.email = email ∧ i.sub = sub ∧ sub ≠ [] ∧ Spec.Acceptable cfg i := by
  have nocons : ∀ (x : Event) (l : List Event), l ≠ x :: l := by
    intro x l he
    have := congrArg List.length he
    simp at this
  cases o with
  | request nonce t url host =>
    unfold step at h
    simp at h
  | begin thread t param cookie =>
    unfold step at h
    dsimp only at h
    split at h
    · exact absurd h (nocons _ _)
    · split at h
      · exact absurd h (nocons _ _)
      · simp at h
  | finish thread a =>
    unfold step at h
    dsimp only at h
    split at h
    · exact absurd h (nocons _ _)
    · split at h
      · exact absurd h (nocons _ _)
      · rename_i i hi
        split at h
        · exact absurd h (nocons _ _)
        · split at h
          · rename_i hok
            simp only [List.cons.injEq, Event.login.injEq, and_true] at h
            obtain ⟨rfl, -, rfl, rfl, -, -⟩ := h
            rw [identityOk_spec] at hok
            refine ⟨a, i, rfl, ?_, ?_, rfl, rfl, hok.2, hok.1⟩
            · unfold Answer.info at hi
              split at hi
              · exact absurd hi (by simp)
              · rename_i ht; simpa using ht
            · unfold Answer.info at hi
              split at hi
              · exact absurd hi (by simp)
              · split at hi
                · rename_i x hx
                  left
                  rw [hx, hi]
                · rename_i hx
                  split at hi
                  · rename_i hq
                    exact Or.inr ⟨hx, by simpa [Spec.mayAsk] using hq, hi⟩
                  · exact absurd hi (by simp)
          · exact absurd h (nocons _ _)

/-- Only a finished callback of an acceptable identity adds a login to the log, so C55 covers all
logins of an execution. -/
theorem step_log (cfg : Config) (s : State) (o : Op) :
    (step cfg s o).log = s.log ∨ ∃ e, (step cfg s o).log = e :: s.log := by
  cases o with
  | request nonce t url host => exact Or.inr ⟨_, rfl⟩
  | begin thread t param cookie =>
    unfold step
    dsimp only
    split
    · exact Or.inl rfl
    · split
      · exact Or.inl rfl
      · exact Or.inr ⟨_, rfl⟩
  | finish thread a =>
    unfold step
    dsimp only
    split
    · exact Or.inl rfl
    · split
      · exact Or.inl rfl
      · split
        · exact Or.inl rfl
        · split
          · exact Or.inr ⟨_, rfl⟩
          · exact Or.inl rfl

/-- C55 for executions: every login in the log has an acceptable identity, which the provider
returned to the callback. -/
theorem logins_acceptable (cfg : Config) (os : List Op) (s : State) (th n : Nat)
    (sub email host url : Str)
    (h : Event.login th n sub email host url ∈ (run cfg os s).log)
    (h0 : Event.login th n sub email host url ∉ s.log) :
    ∃ a i, Op.finish th a ∈ os ∧ a.tokenOk = true ∧
      (a.idToken = some (some i) ∨ (a.idToken = none ∧ Spec.mayAsk cfg a ∧ a.userinfo = some i)) ∧
      i.email = email ∧ i.sub = sub ∧ Spec.Acceptable cfg i := by
  induction os generalizing s with
  | nil => exact absurd h h0
  | cons o os ih =>
    by_cases h1 : Event.login th n sub email host url ∈ (step cfg s o).log
    · rcases step_log cfg s o with he | ⟨e, he⟩
      · rw [he] at h1; exact absurd h1 h0
      · rw [he] at h1
        rcases List.mem_cons.1 h1 with h1 | h1
        · subst h1
          obtain ⟨a, i, rfl, k1, k2, k3, k4, -, k5⟩ := login_identity cfg s o _ _ _ _ _ _ he
          exact ⟨a, i, List.mem_cons_self, k1, k2, k3, k4, k5⟩
        · exact absurd h1 h0
    · obtain ⟨a, i, hm, hrest⟩ := ih (step cfg s o) h h1
      exact ⟨a, i, List.mem_cons_of_mem _ hm, hrest⟩

/-- C55, C02: the way in is open. From any state, a login request followed within five minutes by its callback
with the request's cookie logs the user in, with the subject and address that the provider returned in the ID
token or, if there is none, at the userinfo endpoint, at the page the login started from. -/
theorem login_granted (cfg : Config) (s : State) (n t t' th : Nat) (url host : Str) (a : Answer) (i : Info)
    (ht : t' ≤ t + 300) (htok : a.tokenOk = true)
    (hi : a.idToken = some (some i) ∨ (a.idToken = none ∧ Spec.mayAsk cfg a ∧ a.userinfo = some i))
    (hn : i.nonce = none ∨ i.nonce = some n) (hsub : i.sub ≠ []) (hacc : Spec.Acceptable cfg i) :
    (run cfg [.request n t url host, .begin th t' n (some n), .finish th a] s).log =
      .login th n i.sub i.email host url :: .began th n (some n) t' :: .requested n url host t :: s.log := by
  have hok : identityOk cfg i = true := (identityOk_spec cfg i).mpr ⟨hacc, hsub⟩
  have hinfo : a.info cfg = some i := by
    unfold Answer.info
    rw [if_neg (by simp [htok])]
    rcases hi with h | ⟨h, h2, h3⟩
    · rw [h]
    · rw [h]
      dsimp only
      unfold Spec.mayAsk at h2
      rw [if_pos (by simpa using h2)]
      exact h3
  have hnn : i.nonce.getD n = n := by rcases hn with h | h <;> rw [h] <;> rfl
  have hvac : (vacuum t' (Tbl.put s.states n { created := t, url, host, seen := false })).get n =
      some { created := t, url, host, seen := false } := by
    unfold vacuum Tbl.put Tbl.get
    rw [List.filter_cons_of_pos (by simpa using ht)]
    simp
  show (step cfg (step cfg (step cfg s (.request n t url host)) (.begin th t' n (some n))) (.finish th a)).log = _
  simp only [step, hvac, hinfo, hnn]
  simp [Tbl.put, Tbl.get, hok, hnn]

example : Spec.mayAsk ⟨[], true⟩ ⟨true, none, "bearer".toList, some Ex.info⟩ ∧
    (run ⟨[], true⟩ [.request 7 0 "https://a/1".toList "a".toList, .begin 1 300 7 (some 7),
      .finish 1 ⟨true, none, "bearer".toList, some Ex.info⟩] init).log.head? =
    some (.login 1 7 "u".toList "u@x".toList "a".toList "https://a/1".toList) := by
  refine ⟨⟨rfl, .inr (by decide)⟩, by decide +kernel⟩

/-- With a hosted domain configured: the right domain logs in, another one or none does not. -/
example :
    let cfg : Config := ⟨"x".toList, false⟩
    let go (i : Info) := (run cfg [.request 7 0 "https://a/1".toList "a".toList,
      .begin 1 100 7 (some 7), .finish 1 (Ex.ans i)] init).log.length
    go { Ex.info with hd := "x".toList } = 3 ∧ go { Ex.info with hd := "y".toList } = 2 ∧
      go Ex.info = 2 ∧
      go { Ex.info with hd := "x".toList, emailVerified := some false } = 2 := by
  decide +kernel

end Client

/-! ## The local server -/

namespace Server

/-- What must hold of the earlier log when an event happens. -/
def Cond (clients : List ClientCfg) : Event → List Event → Prop
  | .issued code access cid uri _ _ _, l =>
    (∃ c ∈ clients, c.id = cid ∧ uri ∈ c.uris) ∧
      (∀ a c u w x t, Event.issued code a c u w x t ∉ l) ∧
      (∀ a c u w x t, Event.issued a access c u w x t ∉ l)
  | .exchanged code access cid secret uri t0, l =>
    (∃ uri' u x t, Event.issued code access cid uri' u x t ∈ l ∧ t0 ≤ t + 120) ∧
    (∃ c ∈ clients, c.id = cid ∧ c.secret = secret ∧ uri ∈ c.uris) ∧
    ∀ a c s u t, Event.exchanged code a c s u t ∉ l
  | .info access claims t0, l =>
    (∃ code cid uri u x t, Event.issued code access cid uri u x t ∈ l ∧ t0 ≤ t + 120 ∧
      claims = userinfo x) ∧
    ∀ c t, Event.info access c t ∉ l

def LogOk (clients : List ClientCfg) : List Event → Prop
  | [] => True
  | e :: l => Cond clients e l ∧ LogOk clients l

theorem logOk_split {cl : List ClientCfg} {e : Event} {l1 l2 : List Event}
    (h : LogOk cl (l1 ++ e :: l2)) : Cond cl e l2 := by
  induction l1 with
  | nil => exact h.1
  | cons a l ih => exact ih h.2

theorem exchanged_issued {cl : List ClientCfg} {l : List Event} (h : LogOk cl l)
    {code a t : Nat} {c s u : Str} (hm : Event.exchanged code a c s u t ∈ l) :
    ∃ uri' w x t', Event.issued code a c uri' w x t' ∈ l := by
  obtain ⟨l1, l2, rfl⟩ := List.append_of_mem hm
  obtain ⟨⟨uri', w, x, t', h1, -⟩, -⟩ := logOk_split h
  exact ⟨uri', w, x, t', List.mem_append_right _ (List.mem_cons_of_mem _ h1)⟩

theorem info_issued {cl : List ClientCfg} {l : List Event} (h : LogOk cl l)
    {a t : Nat} {c : Token.Claims} (hm : Event.info a c t ∈ l) :
    ∃ code cid uri w x t', Event.issued code a cid uri w x t' ∈ l := by
  obtain ⟨l1, l2, rfl⟩ := List.append_of_mem hm
  obtain ⟨⟨code, cid, uri, w, x, t', h1, -⟩, -⟩ := logOk_split h
  exact ⟨code, cid, uri, w, x, t', List.mem_append_right _ (List.mem_cons_of_mem _ h1)⟩

structure Inv (cl : List ClientCfg) (s : State) : Prop where
  log : LogOk cl s.log
  codeIssued : ∀ k d, (k, d) ∈ s.codes →
    ∃ uri u x, Event.issued k d.access d.clientID uri u x d.created ∈ s.log
  codeUnused : ∀ k d, (k, d) ∈ s.codes → ∀ a c x u t, Event.exchanged k a c x u t ∉ s.log
  codeVac : ∀ k d, (k, d) ∈ s.codes → ∀ v ∈ s.vacs, v ≤ d.created + 120
  accIssued : ∀ k d, (k, d) ∈ s.access →
    ∃ code uri u, Event.issued code k d.clientID uri u d.claims d.created ∈ s.log
  accUnused : ∀ k d, (k, d) ∈ s.access → ∀ c t, Event.info k c t ∉ s.log
  accVac : ∀ k d, (k, d) ∈ s.access → ∀ v ∈ s.vacs, v ≤ d.created + 120

theorem inv_init (cl : List ClientCfg) : Inv cl init := by
  refine ⟨trivial, ?_, ?_, ?_, ?_, ?_, ?_⟩ <;> simp [init]

/-- Codes and access tokens are random, never the same twice; a request's first critical section
is the call of `vacuum` at its time `t0`; clocks do not go backwards between a `vacuum` and a
later authorization. -/
def Pre (s : State) : Op → Prop
  | .vacuum _ => True
  | .authorize t _ code access _ =>
    (∀ a c u w x t, Event.issued code a c u w x t ∉ s.log) ∧
    (∀ k c u w x t, Event.issued k access c u w x t ∉ s.log) ∧ ∀ v ∈ s.vacs, v ≤ t
  | .token t0 _ => t0 ∈ s.vacs
  | .userinfo t0 _ => t0 ∈ s.vacs

def WF (cl : List ClientCfg) : State → List Op → Prop
  | _, [] => True
  | s, o :: os => Pre s o ∧ WF cl (step cl s o) os

theorem inv_delCode {cl : List ClientCfg} {s : State} (h : Inv cl s) (k : Nat) :
    Inv cl { s with codes := s.codes.del k } :=
  ⟨h.log, fun k d hm => h.codeIssued k d (Tbl.mem_del.1 hm).1,
    fun k d hm => h.codeUnused k d (Tbl.mem_del.1 hm).1,
    fun k d hm => h.codeVac k d (Tbl.mem_del.1 hm).1, h.accIssued, h.accUnused, h.accVac⟩

theorem inv_delAccess {cl : List ClientCfg} {s : State} (h : Inv cl s) (k : Nat) :
    Inv cl { s with access := s.access.del k } :=
  ⟨h.log, h.codeIssued, h.codeUnused, h.codeVac,
    fun k d hm => h.accIssued k d (Tbl.mem_del.1 hm).1,
    fun k d hm => h.accUnused k d (Tbl.mem_del.1 hm).1,
    fun k d hm => h.accVac k d (Tbl.mem_del.1 hm).1⟩

theorem inv_step (cl : List ClientCfg) {s : State} (h : Inv cl s) (o : Op) (hp : Pre s o) :
    Inv cl (step cl s o) := by
  cases o with
  | vacuum t =>
    have sub1 : ∀ x, x ∈ (vacuum t s).codes → x ∈ s.codes ∧ ¬ (x.2.created + 120 < t) := by
      intro x hx
      have := List.mem_filter.1 hx
      simpa using this
    have sub2 : ∀ x, x ∈ (vacuum t s).access → x ∈ s.access ∧ ¬ (x.2.created + 120 < t) := by
      intro x hx
      have := List.mem_filter.1 hx
      simpa using this
    refine ⟨h.log, fun k d hm => h.codeIssued k d (sub1 _ hm).1,
      fun k d hm => h.codeUnused k d (sub1 _ hm).1, ?_,
      fun k d hm => h.accIssued k d (sub2 _ hm).1,
      fun k d hm => h.accUnused k d (sub2 _ hm).1, ?_⟩
    · intro k d hm v hv
      obtain ⟨h1, h2⟩ := sub1 _ hm
      rcases List.mem_cons.1 hv with rfl | hv
      · dsimp only at h2; omega
      · exact h.codeVac k d h1 v hv
    · intro k d hm v hv
      obtain ⟨h1, h2⟩ := sub2 _ hm
      rcases List.mem_cons.1 hv with rfl | hv
      · dsimp only at h2; omega
      · exact h.accVac k d h1 v hv
  | authorize t r code access claims =>
    unfold step
    dsimp only
    split
    · exact h
    · rename_i u hu
      split
      · exact h
      · split
        · exact h
        · rename_i hcl
          split
          · exact h
          · obtain ⟨hp1, hp2, hp3⟩ := hp
            have hreg : ∃ c ∈ cl, c.id = r.clientID ∧ r.uri ∈ c.uris := by
              simp only [Bool.not_eq_true', Bool.not_eq_false, authzClient, List.any_eq_true,
                Bool.and_eq_true, decide_eq_true_eq, List.contains_iff_mem] at hcl
              exact hcl
            refine ⟨⟨⟨hreg, hp1, hp2⟩, h.log⟩, ?_, ?_, ?_, ?_, ?_, ?_⟩
            · intro k d hm
              rcases Tbl.mem_put hm with he | ⟨hm, -⟩
              · cases he; exact ⟨r.uri, u, claims, List.mem_cons_self⟩
              · obtain ⟨uri, w, x, hi⟩ := h.codeIssued k d hm
                exact ⟨uri, w, x, List.mem_cons_of_mem _ hi⟩
            · intro k d hm a c x u' t' hb
              have hb : Event.exchanged k a c x u' t' ∈ s.log := by
                rcases List.mem_cons.1 hb with hb | hb
                · cases hb
                · exact hb
              rcases Tbl.mem_put hm with he | ⟨hm, -⟩
              · cases he
                obtain ⟨uri', w, y, t'', hi⟩ := exchanged_issued h.log hb
                exact hp1 _ _ _ _ _ _ hi
              · exact h.codeUnused k d hm a c x u' t' hb
            · intro k d hm v hv
              rcases Tbl.mem_put hm with he | ⟨hm, -⟩
              · cases he
                have := hp3 v hv
                dsimp only
                omega
              · exact h.codeVac k d hm v hv
            · intro k d hm
              rcases Tbl.mem_put hm with he | ⟨hm, -⟩
              · cases he; exact ⟨code, r.uri, u, List.mem_cons_self⟩
              · obtain ⟨c, uri, w, hi⟩ := h.accIssued k d hm
                exact ⟨c, uri, w, List.mem_cons_of_mem _ hi⟩
            · intro k d hm c t' hb
              have hb : Event.info k c t' ∈ s.log := by
                rcases List.mem_cons.1 hb with hb | hb
                · cases hb
                · exact hb
              rcases Tbl.mem_put hm with he | ⟨hm, -⟩
              · cases he
                obtain ⟨c', cid, uri, w, y, t'', hi⟩ := info_issued h.log hb
                exact hp2 _ _ _ _ _ _ hi
              · exact h.accUnused k d hm c t' hb
            · intro k d hm v hv
              rcases Tbl.mem_put hm with he | ⟨hm, -⟩
              · cases he
                have := hp3 v hv
                dsimp only
                omega
              · exact h.accVac k d hm v hv
  | token t0 r =>
    unfold step
    dsimp only
    split
    · exact h
    · split
      · exact h
      · rename_i hcl
        have hreg : ∃ c ∈ cl, c.id = r.clientID ∧ c.secret = r.secret ∧ r.uri ∈ c.uris := by
          simp only [Bool.not_eq_true', Bool.not_eq_false, tokenClient, List.any_eq_true,
            Bool.and_eq_true, decide_eq_true_eq, List.contains_iff_mem] at hcl
          obtain ⟨c, h1, ⟨h2, h3⟩, h4⟩ := hcl
          exact ⟨c, h1, h2, h3, h4⟩
        have hdel := inv_delCode h r.code
        cases hg : s.codes.get r.code with
        | none => exact hdel
        | some d =>
          dsimp only
          split
          · exact hdel
          · rename_i hid
            simp only [ne_eq, Decidable.not_not] at hid
            have hmem := Tbl.get_mem hg
            obtain ⟨uri, u, x, hi⟩ := h.codeIssued _ _ hmem
            refine ⟨⟨⟨⟨uri, u, x, d.created, ?_, h.codeVac _ _ hmem t0 hp⟩, hreg,
              h.codeUnused _ _ hmem⟩, h.log⟩, ?_, ?_, hdel.codeVac, ?_, ?_, hdel.accVac⟩
            · rw [← hid]; exact hi
            · intro k d' hm
              obtain ⟨uri, w, x, hi⟩ := hdel.codeIssued k d' hm
              exact ⟨uri, w, x, List.mem_cons_of_mem _ hi⟩
            · intro k d' hm a c y u' t' hb
              rcases List.mem_cons.1 hb with hb | hb
              · cases hb
                exact (Tbl.mem_del.1 hm).2 rfl
              · exact hdel.codeUnused k d' hm a c y u' t' hb
            · intro k d' hm
              obtain ⟨c, uri, w, hi⟩ := hdel.accIssued k d' hm
              exact ⟨c, uri, w, List.mem_cons_of_mem _ hi⟩
            · intro k d' hm c t' hb
              rcases List.mem_cons.1 hb with hb | hb
              · cases hb
              · exact hdel.accUnused k d' hm c t' hb
  | userinfo t0 a =>
    unfold step
    dsimp only
    have hdel := inv_delAccess h a
    cases hg : s.access.get a with
    | none => exact hdel
    | some d =>
      dsimp only
      have hmem := Tbl.get_mem hg
      obtain ⟨code, uri, u, hi⟩ := h.accIssued _ _ hmem
      refine ⟨⟨⟨⟨code, d.clientID, uri, u, d.claims, d.created, hi,
        h.accVac _ _ hmem t0 hp, rfl⟩, h.accUnused _ _ hmem⟩, h.log⟩, ?_, ?_, hdel.codeVac, ?_, ?_,
        hdel.accVac⟩
      · intro k d' hm
        obtain ⟨uri, w, x, hi⟩ := hdel.codeIssued k d' hm
        exact ⟨uri, w, x, List.mem_cons_of_mem _ hi⟩
      · intro k d' hm a' c y u' t' hb
        rcases List.mem_cons.1 hb with hb | hb
        · cases hb
        · exact hdel.codeUnused k d' hm a' c y u' t' hb
      · intro k d' hm
        obtain ⟨c, uri, w, hi⟩ := hdel.accIssued k d' hm
        exact ⟨c, uri, w, List.mem_cons_of_mem _ hi⟩
      · intro k d' hm c t' hb
        rcases List.mem_cons.1 hb with hb | hb
        · cases hb
          exact (Tbl.mem_del.1 hm).2 rfl
        · exact hdel.accUnused k d' hm c t' hb

theorem inv_run (cl : List ClientCfg) (os : List Op) {s : State} (h : Inv cl s)
    (hw : WF cl s os) : Inv cl (run cl os s) := by
  induction os generalizing s with
  | nil => exact h
  | cons o os ih => exact ih (inv_step cl h o hw.1) hw.2

/-- C56. In every execution, whenever the token endpoint returns tokens for a code: the code was
issued before, to the same client, at most two minutes before the request; the client
authenticated with the secret configured for it; and the code is exchanged at no other time,
before or after. -/
theorem code_exchange (cl : List ClientCfg) (os : List Op) (hw : WF cl init os)
    (l1 l2 : List Event) (code access : Nat) (cid secret uri : Str) (t0 : Nat)
    (h : (run cl os init).log = l1 ++ Event.exchanged code access cid secret uri t0 :: l2) :
    (∃ uri' user claims t, Event.issued code access cid uri' user claims t ∈ l2 ∧
      t0 ≤ t + 120) ∧
    (∃ c ∈ cl, c.id = cid ∧ c.secret = secret ∧ uri ∈ c.uris) ∧
    (∀ a c s u t, Event.exchanged code a c s u t ∉ l1 ++ l2) := by
  have hlog := (inv_run cl os (inv_init cl) hw).log
  rw [h] at hlog
  obtain ⟨h1, h2, h3⟩ := logOk_split hlog
  refine ⟨h1, h2, ?_⟩
  intro a c s u t hm
  rcases List.mem_append.1 hm with hm | hm
  · obtain ⟨x, y, rfl⟩ := List.append_of_mem hm
    rw [List.append_assoc, List.cons_append] at hlog
    obtain ⟨-, -, hno⟩ := logOk_split hlog
    exact hno access cid secret uri t0 (List.mem_append_right _ List.mem_cons_self)
  · exact h3 a c s u t hm

theorem exchange_if (cl : List ClientCfg) (s : State) (code : Nat) (cid secret uri : Str) (t0 : Nat) (d : Code)
    (h1 : ∃ c ∈ cl, c.id = cid ∧ c.secret = secret ∧ uri ∈ c.uris) (h2 : s.codes.get code = some d)
    (h4 : d.clientID = cid) :
    (step cl s (.token t0 ⟨true, "authorization_code".toList, code, cid, secret, uri⟩)).log =
      Event.exchanged code d.access cid secret uri t0 :: s.log := by
  have h3 : tokenClient cl cid secret uri = true := by
    obtain ⟨c, hc, h5, h6, h7⟩ := h1
    unfold tokenClient
    rw [List.any_eq_true]
    exact ⟨c, hc, by simp [h5, h6, h7]⟩
  have hb : ∀ x : Str, ¬ (!true || decide (x ≠ x)) = true := by intro x; simp
  unfold step
  generalize "authorization_code".toList = g
  dsimp only
  rw [if_neg (hb _), h3, if_neg (by decide), h2]
  dsimp only
  rw [if_neg (fun h => h h4)]

/-- C56, the request: a step returns the tokens of a code exactly in answer to a POST for the grant type
`authorization_code` by a client that knows its secret, of a code that is stored for this client. -/
theorem exchange_request (cl : List ClientCfg) (s : State) (o : Op) (code access : Nat)
    (cid secret uri : Str) (t0 : Nat) :
    (step cl s o).log = Event.exchanged code access cid secret uri t0 :: s.log ↔
    ∃ d, o = .token t0 ⟨true, "authorization_code".toList, code, cid, secret, uri⟩ ∧
      (∃ c ∈ cl, c.id = cid ∧ c.secret = secret ∧ uri ∈ c.uris) ∧
      s.codes.get code = some d ∧ d.clientID = cid ∧ d.access = access := by
  have nocons : ∀ (x : Event) (l : List Event), l ≠ x :: l := by
    intro x l he
    have := congrArg List.length he
    simp at this
  have hcl : ∀ a b c, tokenClient cl a b c = true ↔ ∃ x ∈ cl, x.id = a ∧ x.secret = b ∧ c ∈ x.uris := by
    intro a b c
    simp [tokenClient, and_assoc]
  constructor
  · intro h
    cases o with
    | vacuum t' => exact absurd h (nocons _ _)
    | authorize t' r code' access' claims' =>
      unfold step at h
      dsimp only at h
      split at h
      · exact absurd h (nocons _ _)
      · split at h
        · exact absurd h (nocons _ _)
        · split at h
          · exact absurd h (nocons _ _)
          · split at h
            · exact absurd h (nocons _ _)
            · simp at h
    | token t' r =>
      unfold step at h
      dsimp only at h
      split at h
      · exact absurd h (nocons _ _)
      · rename_i hpg
        split at h
        · exact absurd h (nocons _ _)
        · rename_i htc
          split at h
          · exact absurd h (nocons _ _)
          · rename_i d hd
            split at h
            · exact absurd h (nocons _ _)
            · rename_i hid
              simp only [List.cons.injEq, Event.exchanged.injEq, and_true] at h
              obtain ⟨rfl, rfl, rfl, rfl, rfl, rfl⟩ := h
              rw [Bool.or_eq_true, not_or] at hpg
              obtain ⟨p, g, c, i, sec, u⟩ := r
              dsimp only at hpg htc hd hid
              cases p
              · exact absurd rfl hpg.1
              have h2 : g = "authorization_code".toList :=
                Decidable.not_not.1 fun h => hpg.2 (decide_eq_true h)
              have h3 : tokenClient cl i sec u = true := by
                cases h : tokenClient cl i sec u
                · rw [h] at htc; exact absurd rfl htc
                · rfl
              rw [h2]
              exact ⟨d, rfl, (hcl _ _ _).1 h3, hd, Decidable.not_not.1 hid, rfl⟩
    | userinfo t' a =>
      unfold step at h
      dsimp only at h
      split at h
      · exact absurd h (nocons _ _)
      · simp at h
  · rintro ⟨d, rfl, h1, h2, rfl, rfl⟩
    exact exchange_if cl s code _ secret uri t0 d h1 h2 rfl

/-- C57. A step sends a code out only in answer to an authorization request of a logged-in user,
and only to a redirect URI registered for the client id of the request. -/
theorem redirect_registered (cl : List ClientCfg) (s : State) (o : Op) (code access : Nat)
    (cid uri : Str) (user claims : Token.Claims) (t : Nat)
    (h : (step cl s o).log = Event.issued code access cid uri user claims t :: s.log) :
    ∃ r, o = .authorize t r code access claims ∧ r.user = some user ∧ r.clientID = cid ∧
      r.uri = uri ∧ r.responseType = "code".toList ∧ r.uriParses = true ∧
      ∃ c ∈ cl, c.id = cid ∧ uri ∈ c.uris := by
  have nocons : ∀ (x : Event) (l : List Event), l ≠ x :: l := by
    intro x l he
    have := congrArg List.length he
    simp at this
  cases o with
  | vacuum t' => exact absurd h (nocons _ _)
  | authorize t' r code' access' claims' =>
    unfold step at h
    dsimp only at h
    split at h
    · exact absurd h (nocons _ _)
    · rename_i u hu
      split at h
      · exact absurd h (nocons _ _)
      · rename_i hrt
        split at h
        · exact absurd h (nocons _ _)
        · rename_i hcl
          split at h
          · exact absurd h (nocons _ _)
          · rename_i hup
            simp only [List.cons.injEq, Event.issued.injEq, and_true] at h
            obtain ⟨rfl, rfl, rfl, rfl, rfl, rfl, rfl⟩ := h
            refine ⟨r, rfl, hu, rfl, rfl, by simpa using hrt, by simpa using hup, ?_⟩
            simp only [Bool.not_eq_true', Bool.not_eq_false, authzClient, List.any_eq_true,
              Bool.and_eq_true, decide_eq_true_eq, List.contains_iff_mem] at hcl
            exact hcl
  | token t0 r =>
    unfold step at h
    dsimp only at h
    split at h
    · exact absurd h (nocons _ _)
    · split at h
      · exact absurd h (nocons _ _)
      · split at h
        · exact absurd h (nocons _ _)
        · split at h
          · exact absurd h (nocons _ _)
          · simp at h
  | userinfo t0 a =>
    unfold step at h
    dsimp only at h
    split at h
    · exact absurd h (nocons _ _)
    · simp at h

/-- C57 for executions. -/
theorem codes_to_registered (cl : List ClientCfg) (os : List Op) (hw : WF cl init os)
    (code access : Nat) (cid uri : Str) (user claims : Token.Claims) (t : Nat)
    (h : Event.issued code access cid uri user claims t ∈ (run cl os init).log) :
    ∃ c ∈ cl, c.id = cid ∧ uri ∈ c.uris := by
  have hlog := (inv_run cl os (inv_init cl) hw).log
  obtain ⟨l1, l2, hl⟩ := List.append_of_mem h
  rw [hl] at hlog
  exact (logOk_split hlog).1

namespace Ex

def cl : List ClientCfg :=
  [⟨"c1".toList, "s1".toList, ["https://x/cb".toList, "https://x/alt".toList]⟩,
   ⟨"c2".toList, "s2".toList, ["https://y/cb".toList]⟩]

def user : Token.Claims := [("sub", .str "u".toList)]
def claims : Token.Claims :=
  [("iss", .str "i".toList), ("sub", .str "u".toList), ("email", .str "u@x".toList)]

def ar : AuthzReq := ⟨some user, "code".toList, "c1".toList, "https://x/cb".toList, true⟩
def tr : TokenReq :=
  ⟨true, "authorization_code".toList, 5, "c1".toList, "s1".toList, "https://x/cb".toList⟩

/-- A redirect URI that is not registered, a login, an exchange by the wrong client for another
code, the exchange, its replay, two userinfo requests. -/
def ops : List Op :=
  [ .vacuum 0, .authorize 0 { ar with uri := "https://evil/".toList } 4 40 claims,
    .vacuum 1, .authorize 1 ar 5 50 claims,
    .vacuum 2, .authorize 2 ar 6 60 claims,
    .vacuum 50, .token 50 { tr with code := 6, clientID := "c2".toList, secret := "s2".toList,
                                     uri := "https://y/cb".toList },
    .vacuum 60, .token 60 tr, .token 60 tr,
    .vacuum 70, .userinfo 70 50, .userinfo 70 50 ]

end Ex

example : WF Ex.cl init Ex.ops ∧ (run Ex.cl Ex.ops init).log =
    [ .info 50 [("sub", .str "u".toList), ("email", .str "u@x".toList)] 70,
      .exchanged 5 50 "c1".toList "s1".toList "https://x/cb".toList 60,
      .issued 6 60 "c1".toList "https://x/cb".toList Ex.user Ex.claims 2,
      .issued 5 50 "c1".toList "https://x/cb".toList Ex.user Ex.claims 1 ] := by
  refine ⟨?_, by decide +kernel⟩
  simp [Ex.ops, WF, Pre, step, init, vacuum, Ex.ar, Ex.tr, Ex.cl, authzClient, tokenClient,
    Tbl.get, Tbl.put, Tbl.del, List.lookup]

/-- Non-vacuity of `exchange_request`: the exchange of the execution above. -/
example : (step Ex.cl (run Ex.cl [.vacuum 1, .authorize 1 Ex.ar 5 50 Ex.claims] init) (.token 60 Ex.tr)).log =
    .exchanged 5 50 "c1".toList "s1".toList "https://x/cb".toList 60 ::
      (run Ex.cl [.vacuum 1, .authorize 1 Ex.ar 5 50 Ex.claims] init).log := by
  decide +kernel

/-- C58, what does hold: the redirect URI of an exchange is one of those registered for the
client. -/
theorem exchange_uri_partial (cl : List ClientCfg) (os : List Op) (hw : WF cl init os)
    (code access : Nat) (cid secret uri : Str) (t0 : Nat)
    (h : Event.exchanged code access cid secret uri t0 ∈ (run cl os init).log) :
    ∃ c ∈ cl, c.id = cid ∧ c.secret = secret ∧ uri ∈ c.uris := by
  obtain ⟨l1, l2, hl⟩ := List.append_of_mem h
  exact (code_exchange cl os hw l1 l2 code access cid secret uri t0 hl).2.1

/-- C58 does not hold: the redirect URI of the authorization is not stored with the code, and a
code sent to one registered URI is exchanged with another one. -/
theorem exchange_uri_violated :
    ∃ (os : List Op) (code access : Nat) (cid secret uri uri' : Str) (t t0 : Nat),
      WF Ex.cl init os ∧ uri ≠ uri' ∧
      Event.issued code access cid uri Ex.user Ex.claims t ∈ (run Ex.cl os init).log ∧
      Event.exchanged code access cid secret uri' t0 ∈ (run Ex.cl os init).log := by
  refine ⟨[.vacuum 1, .authorize 1 Ex.ar 5 50 Ex.claims, .vacuum 60,
    .token 60 { Ex.tr with uri := "https://x/alt".toList }], 5, 50, "c1".toList, "s1".toList,
    "https://x/cb".toList, "https://x/alt".toList, 1, 60, ?_, by decide, by decide +kernel,
    by decide +kernel⟩
  simp [WF, Pre, step, init, vacuum, Ex.ar, Ex.cl, authzClient, Tbl.put, Tbl.del]

/-- Access tokens are secrets: whoever presents one has received it from the token endpoint, or
is guessing, in which case it is not one that was ever generated. -/
def Secret (cl : List ClientCfg) : State → List Op → Prop
  | _, [] => True
  | s, o :: os =>
    (match o with
     | .userinfo _ a => (∃ code c x u t, Event.exchanged code a c x u t ∈ s.log) ∨
         ∀ code c u w x t, Event.issued code a c u w x t ∉ s.log
     | _ => True) ∧ Secret cl (step cl s o) os

/-- Whenever userinfo has answered, the token had been handed out by the token endpoint. -/
def Handed (l : List Event) : Prop :=
  ∀ l1 l2 a c t, l = l1 ++ Event.info a c t :: l2 →
    ∃ code cid x u t', Event.exchanged code a cid x u t' ∈ l2

theorem handed_cons {e : Event} {l : List Event} (h : Handed l)
    (he : ∀ a c t, e = Event.info a c t →
      ∃ code cid x u t', Event.exchanged code a cid x u t' ∈ l) : Handed (e :: l) := by
  intro l1 l2 a c t hl
  cases l1 with
  | nil =>
    rw [List.nil_append, List.cons.injEq] at hl
    obtain ⟨h1, rfl⟩ := hl
    exact he a c t h1
  | cons x l1 =>
    rw [List.cons_append, List.cons.injEq] at hl
    exact h l1 l2 a c t hl.2

theorem handed_run (cl : List ClientCfg) (os : List Op) {s : State} (hi : Inv cl s)
    (h : Handed s.log) (hw : WF cl s os) (hs : Secret cl s os) : Handed (run cl os s).log := by
  induction os generalizing s with
  | nil => exact h
  | cons o os ih =>
    refine ih (inv_step cl hi o hw.1) ?_ hw.2 hs.2
    have ho := hs.1
    cases o with
    | vacuum t => exact h
    | authorize t r code access claims =>
      unfold step
      dsimp only
      split
      · exact h
      · split
        · exact h
        · split
          · exact h
          · split
            · exact h
            · exact handed_cons h (fun a c t he => by cases he)
    | token t0 r =>
      unfold step
      dsimp only
      split
      · exact h
      · split
        · exact h
        · split
          · exact h
          · split
            · exact h
            · exact handed_cons h (fun a c t he => by cases he)
    | userinfo t0 a =>
      unfold step
      dsimp only
      cases hg : s.access.get a with
      | none => exact h
      | some d =>
        apply handed_cons h
        intro a' c t he
        injection he with e1 e2 e3
        subst e1
        obtain ⟨code, uri, u, hiss⟩ := hi.accIssued _ _ (Tbl.get_mem hg)
        dsimp only at ho
        rcases ho with ho | ho
        · exact ho
        · exact absurd hiss (ho _ _ _ _ _ _)

/-- Claims that belong to the protocol and not to the user. -/
def Spec.protocolClaims : List String :=
  ["iss", "aud", "iat", "exp", "nbf", "scope", "sid", "nonce"]

/-- C59. Whenever the userinfo endpoint answers: the access token was handed out by the token
endpoint before, was generated with an authorization at most two minutes before the request, and
is answered at no other time; the answer is the claims of that authorization's token without the
protocol claims. -/
theorem userinfo_once (cl : List ClientCfg) (os : List Op) (hw : WF cl init os)
    (hs : Secret cl init os) (l1 l2 : List Event) (a : Nat) (c : Token.Claims) (t0 : Nat)
    (h : (run cl os init).log = l1 ++ Event.info a c t0 :: l2) :
    (∃ code cid x u t, Event.exchanged code a cid x u t ∈ l2) ∧
    (∃ code cid uri user claims t, Event.issued code a cid uri user claims t ∈ l2 ∧
      t0 ≤ t + 120 ∧
      ∀ k, Token.get c k = if k ∈ Spec.protocolClaims then none else Token.get claims k) ∧
    (∀ c' t, Event.info a c' t ∉ l1 ++ l2) := by
  have hi := inv_run cl os (inv_init cl) hw
  have hlog := hi.log
  rw [h] at hlog
  obtain ⟨⟨code, cid, uri, user, x, t, h1, h2, h3⟩, h4⟩ := logOk_split hlog
  refine ⟨?_, ⟨code, cid, uri, user, x, t, h1, h2, ?_⟩, ?_⟩
  · have := handed_run cl os (inv_init cl)
      (fun l1 l2 a c t hl => by simp [init] at hl) hw hs
    exact this l1 l2 a c t0 h
  · intro k
    rw [h3]
    unfold userinfo
    rw [Token.get_filter (fun k => !filtered.contains k)]
    by_cases hk : k ∈ Spec.protocolClaims
    · rw [if_pos hk, if_neg]
      have : k ∈ filtered := hk
      simp [this]
    · rw [if_neg hk, if_pos]
      have : k ∉ filtered := hk
      simp [this]
  · intro c' t' hm
    rcases List.mem_append.1 hm with hm | hm
    · obtain ⟨x', y, rfl⟩ := List.append_of_mem hm
      rw [List.append_assoc, List.cons_append] at hlog
      obtain ⟨-, hno⟩ := logOk_split hlog
      exact hno c t0 (List.mem_append_right _ List.mem_cons_self)
    · exact h4 c' t' hm

example : Secret Ex.cl init Ex.ops := by
  simp [Ex.ops, Secret, step, init, vacuum, Ex.ar, Ex.tr, Ex.cl, authzClient, tokenClient,
    Tbl.get, Tbl.put, Tbl.del, List.lookup]

end Server

end Verif.Oidc
