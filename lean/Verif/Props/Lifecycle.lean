import Verif.Model.Lifecycle
/-
C15, C16, C86.
-/
namespace Verif.Lifecycle

/-! ## Specification -/

/-- The connection is registered in flight with the backend. -/
def Spec.active (p : Phase) : Bool := p == .registered || p == .handed || p == .crashed

/-! ## C15 -/

structure Inv (s : St) : Prop where
  count : s.life.inFlight = (s.conns.countP Spec.active : Nat)
  closes : s.life.chanCloses = if s.life.server then 0 else 1
  drained : s.life.shutdown = true → s.life.inFlight = 0 → s.life.server = false

theorem countP_set {p : Phase → Bool} {l : List Phase} {i : Nat} {a b : Phase} (h : l[i]? = some a) :
    (l.set i b).countP p + (if p a then 1 else 0) = l.countP p + (if p b then 1 else 0) := by
  induction l generalizing i with
  | nil => simp at h
  | cons x l ih =>
    cases i with
    | zero =>
      simp at h; subst h
      simp only [List.set_cons_zero, List.countP_cons]; omega
    | succ i =>
      simp at h
      have := ih h
      simp only [List.set_cons_succ, List.countP_cons]; omega

theorem inv_init (h3 : Bool) : Inv { life := { h3 := h3 } } := by constructor <;> simp

theorem inc_fields (l : Life) (d : Int) :
    (l.incInFlight d).inFlight = l.inFlight + d ∧ (l.incInFlight d).shutdown = l.shutdown ∧
    ((l.incInFlight d).server = l.server ∧ (l.incInFlight d).chanCloses = l.chanCloses ∧
      ¬ (l.inFlight + d = 0 ∧ l.shutdown ∧ l.server) ∨
     l.inFlight + d = 0 ∧ l.shutdown = true ∧ l.server = true ∧ (l.incInFlight d).server = false ∧
      (l.incInFlight d).chanCloses = l.chanCloses + 1) := by
  unfold Life.incInFlight
  dsimp only
  split
  · rename_i h; exact ⟨rfl, rfl, Or.inr ⟨h.1, h.2.1, h.2.2, rfl, rfl⟩⟩
  · rename_i h; exact ⟨rfl, rfl, Or.inl ⟨rfl, rfl, h⟩⟩

theorem inv_step {s : St} (h : Inv s) (op : Op) : Inv (s.step op) := by
  have setc : ∀ (i : Nat) (a b : Phase), s.conns[i]? = some a → Spec.active a = Spec.active b →
      Inv { s with conns := s.conns.set i b } := by
    intro i a b ha hab
    have := countP_set (p := Spec.active) (b := b) ha
    rw [hab] at this
    refine ⟨?_, h.closes, h.drained⟩
    rw [h.count]; simp only; omega
  cases op with
  | arrive =>
    refine ⟨?_, h.closes, h.drained⟩
    simp only [St.step, List.countP_append, h.count]
    simp [Spec.active]
  | lookup i =>
    simp only [St.step]
    split
    · rename_i hi
      apply setc i _ _ hi
      split <;> rfl
    · exact h
  | register i =>
    simp only [St.step]
    split
    · rename_i hi
      have hc := countP_set (p := Spec.active) (b := .registered) hi
      simp only [Spec.active] at hc
      simp at hc
      obtain ⟨e1, e2, e3⟩ := inc_fields s.life 1
      have hcount : (s.life.incInFlight 1).inFlight =
          (((s.conns.set i .registered).countP Spec.active : Nat) : Int) := by
        rw [e1, h.count]
        have : (s.conns.set i .registered).countP Spec.active = s.conns.countP Spec.active + 1 := hc
        rw [this]; simp
      refine ⟨hcount, ?_, ?_⟩
      · rcases e3 with ⟨a, b, _⟩ | ⟨_, _, c, a, b⟩
        · simp only; rw [a, b]; exact h.closes
        · simp only; rw [a, b, h.closes, c]; simp
      · intro h1 h2
        simp only at h1 h2 ⊢
        rw [e1] at h2
        have := h.count
        omega
    · exact h
  | send i =>
    simp only [St.step]
    split
    · rename_i hi
      apply setc i _ _ hi
      split <;> rfl
    · exact h
  | finish i =>
    simp only [St.step]
    split
    · rename_i hi
      have hc : (s.conns.set i .ended).countP Spec.active + 1 = s.conns.countP Spec.active := by
        rcases hi with hi | hi | hi
        all_goals
          have := countP_set (p := Spec.active) (b := .ended) hi
          simp [Spec.active] at this
          exact this
      obtain ⟨e1, e2, e3⟩ := inc_fields s.life (-1)
      refine ⟨?_, ?_, ?_⟩
      · simp only; rw [e1, h.count]; omega
      · rcases e3 with ⟨a, b, _⟩ | ⟨_, _, c, a, b⟩
        · simp only; rw [a, b]; exact h.closes
        · simp only; rw [a, b, h.closes, c]; simp
      · intro h1 h2
        simp only at h1 h2 ⊢
        rw [e1] at h2
        rw [e2] at h1
        rcases e3 with ⟨a, b, c⟩ | ⟨_, _, c, a, b⟩
        · rw [a]
          cases hs : s.life.server with
          | false => rfl
          | true => exact absurd ⟨h2, h1, hs⟩ c
        · exact a
    · exact h
  | graceful =>
    simp only [St.step, Life.close]
    split
    · exact h
    · rename_i hs
      have hs' : s.life.server = true := by simpa using hs
      simp only [Bool.false_eq_true, if_false]
      split
      · rename_i h0
        refine ⟨by simpa using h.count, ?_, by simp⟩
        have := h.closes; rw [hs'] at this; simp only at this ⊢; simp [this]
      · rename_i h0
        refine ⟨by simpa using h.count, by simpa using h.closes, ?_⟩
        intro _ h2; exact absurd h2 h0
  | hard =>
    simp only [St.step, Life.close]
    split
    · exact h
    · rename_i hs
      have hs' : s.life.server = true := by simpa using hs
      simp only [if_true]
      refine ⟨by simpa using h.count, ?_, by simp⟩
      have := h.closes; rw [hs'] at this; simp only at this ⊢; simp [this]

theorem inv_run {s : St} (h : Inv s) (ops : List Op) : Inv (s.run ops) := by
  induction ops generalizing s with
  | nil => exact h
  | cons op ops ih => exact ih (inv_step h op)

/-- C15, once. The hand-off channel of a backend is closed at most once, under every
interleaving of graceful closes, hard closes, connection starts and ends. -/
theorem chan_closed_once (h3 : Bool) (ops : List Op) :
    (({ life := { h3 := h3 } } : St).run ops).life.chanCloses ≤ 1 := by
  rw [(inv_run (inv_init h3) ops).closes]; split <;> omega

/-- C15, not early. The step that closes the channel is a hard close, or leaves no connection
registered in flight. -/
theorem chan_close_waits (h3 : Bool) (ops : List Op) (op : Op) :
    let s := ({ life := { h3 := h3 } } : St).run ops
    s.life.chanCloses = 0 → (s.step op).life.chanCloses ≠ 0 →
    op = .hard ∨ ∀ p ∈ (s.step op).conns, Spec.active p = false := by
  intro s h0 h1
  have hI := inv_run (inv_init h3) ops
  have hI' := inv_step hI op
  have zero : (s.step op).life.inFlight = 0 → ∀ p ∈ (s.step op).conns, Spec.active p = false := by
    intro hz p hp
    have := hI'.count
    rw [hz] at this
    have hc : (s.step op).conns.countP Spec.active = 0 := by
      simpa using this.symm
    have := List.countP_eq_zero.mp hc p hp
    simpa using this
  cases op with
  | hard => exact Or.inl rfl
  | arrive => exact absurd h0 h1
  | lookup i => simp only [St.step] at h1; split at h1 <;> exact absurd h0 h1
  | send i => simp only [St.step] at h1; split at h1 <;> exact absurd h0 h1
  | register i =>
    right; apply zero
    simp only [St.step] at h1 ⊢
    split at h1
    · rename_i hi
      rw [if_pos hi]
      obtain ⟨e1, e2, e3⟩ := inc_fields s.life 1
      rcases e3 with ⟨a, b, _⟩ | ⟨z, _⟩
      · simp only at h1; rw [b] at h1; exact absurd h0 h1
      · simp only; rw [e1]; exact z
    · exact absurd h0 h1
  | finish i =>
    right; apply zero
    simp only [St.step] at h1 ⊢
    split at h1
    · rename_i hi
      rw [if_pos hi]
      obtain ⟨e1, e2, e3⟩ := inc_fields s.life (-1)
      rcases e3 with ⟨a, b, _⟩ | ⟨z, _⟩
      · simp only at h1; rw [b] at h1; exact absurd h0 h1
      · simp only; rw [e1]; exact z
    · exact absurd h0 h1
  | graceful =>
    right; apply zero
    simp only [St.step, Life.close] at h1 ⊢
    split at h1
    · exact absurd h0 h1
    · rename_i hs
      rw [if_neg hs]
      simp only [Bool.false_eq_true, if_false] at h1 ⊢
      split at h1
      · rename_i hz; rw [if_pos hz]; exact hz
      · exact absurd h0 h1

theorem shutdown_mono (ops : List Op) (s : St) (h : s.life.shutdown = true) :
    (s.run ops).life.shutdown = true := by
  induction ops generalizing s with
  | nil => exact h
  | cons op ops ih =>
    apply ih
    cases op <;> simp only [St.step]
    · exact h
    · split <;> exact h
    · split
      · exact (inc_fields s.life 1).2.1.trans h
      · exact h
    · split <;> exact h
    · split
      · exact (inc_fields s.life (-1)).2.1.trans h
      · exact h
    · unfold Life.close; split
      · exact h
      · simp only [Bool.false_eq_true, if_false]; split <;> rfl
    · unfold Life.close; split
      · exact h
      · simp only [if_true]; exact h

/-- C15, no new connections. After a graceful close of a backend that has an HTTP server, every
connection that later counts as accepted by it had already been given the backend at the moment
of the close. -/
theorem no_new_after_close (h3 : Bool) (before after : List Op) (i : Nat) :
    let s := ({ life := { h3 := h3 } } : St).run before
    s.life.server = true →
    let s' := (s.step .graceful).run after
    (s'.conns[i]? = some .looked ∨ ∃ p, s'.conns[i]? = some p ∧ Spec.active p = true) →
    s.conns[i]? = some .looked ∨ ∃ p, s.conns[i]? = some p ∧ Spec.active p = true := by
  intro s hs
  dsimp only
  intro h'
  have hsd : (s.step .graceful).life.shutdown = true := by
    simp only [St.step, Life.close, hs, Bool.true_eq_false, Bool.false_eq_true, if_false]
    split <;> rfl
  have hc : (s.step .graceful).conns = s.conns := rfl
  rw [← hc]
  clear hc
  generalize s.step .graceful = t at hsd h'
  suffices H : ∀ (ops : List Op) (t : St), t.life.shutdown = true →
      ((t.run ops).conns[i]? = some .looked ∨ ∃ p, (t.run ops).conns[i]? = some p ∧ Spec.active p = true) →
      t.conns[i]? = some .looked ∨ ∃ p, t.conns[i]? = some p ∧ Spec.active p = true from H after t hsd h'
  intro ops
  induction ops with
  | nil => intro t _ h; exact h
  | cons op ops ih =>
    intro t hsd h
    have h1 := ih (t.step op) (shutdown_mono [op] t hsd) h
    have setc : ∀ (j : Nat) (a b : Phase), t.conns[j]? = some a →
        ((b = .looked ∨ Spec.active b = true) → a = .looked ∨ Spec.active a = true) →
        ((t.conns.set j b)[i]? = some .looked ∨ ∃ p, (t.conns.set j b)[i]? = some p ∧ Spec.active p = true) →
        t.conns[i]? = some .looked ∨ ∃ p, t.conns[i]? = some p ∧ Spec.active p = true := by
      intro j a b ha hab hh
      by_cases hj : j = i
      · subst hj
        have hlt := (List.getElem?_eq_some_iff.mp ha).1
        simp only [List.getElem?_set_self hlt] at hh
        have : b = .looked ∨ Spec.active b = true := by
          rcases hh with hh | ⟨p, hp, hp'⟩
          · left; simpa using hh
          · right; cases hp; exact hp'
        rcases hab this with rfl | hact
        · exact Or.inl ha
        · exact Or.inr ⟨a, ha, hact⟩
      · simpa only [List.getElem?_set_ne hj] using hh
    cases op with
    | arrive =>
      simp only [St.step] at h1
      by_cases hi : i < t.conns.length
      · simpa only [List.getElem?_append_left hi] using h1
      · rw [List.getElem?_append_right (by omega)] at h1
        rcases h1 with h1 | ⟨p, hp, hp'⟩
        · have := List.mem_of_getElem? h1; simp at this
        · have := List.mem_of_getElem? hp; simp at this; subst this; simp [Spec.active] at hp'
    | lookup j =>
      simp only [St.step] at h1
      split at h1
      · rename_i hj
        refine setc j _ _ hj ?_ h1
        simp [hsd, Spec.active]
      · exact h1
    | register j =>
      simp only [St.step] at h1
      split at h1
      · rename_i hj
        exact setc j _ _ hj (fun _ => Or.inl rfl) h1
      · exact h1
    | send j =>
      simp only [St.step] at h1
      split at h1
      · rename_i hj
        exact setc j _ _ hj (fun _ => Or.inr rfl) h1
      · exact h1
    | finish j =>
      simp only [St.step] at h1
      split at h1
      · rename_i hj
        obtain ⟨a, ha, hact⟩ : ∃ a, t.conns[j]? = some a ∧ Spec.active a = true := by
          rcases hj with hj | hj | hj <;> exact ⟨_, hj, rfl⟩
        exact setc j _ _ ha (fun _ => Or.inr hact) h1
      · exact h1
    | graceful => exact h1
    | hard => exact h1

/-- C15, it does get closed: after a graceful close, whenever no connection is in flight any
more, the channel is closed. -/
theorem chan_closes_when_drained (h3 : Bool) (before after : List Op) :
    let s := (({ life := { h3 := h3 } } : St).run before |>.step .graceful).run after
    (({ life := { h3 := h3 } } : St).run before).life.server = true →
    (∀ p ∈ s.conns, Spec.active p = false) → s.life.chanCloses = 1 := by
  intro s hs hz
  have hI : Inv s := inv_run (inv_step (inv_run (inv_init h3) before) .graceful) after
  have hsd : s.life.shutdown = true := by
    apply shutdown_mono
    simp only [St.step, Life.close, hs, Bool.true_eq_false, Bool.false_eq_true, if_false]
    split <;> rfl
  have h0 : s.life.inFlight = 0 := by
    rw [hI.count]
    have : s.conns.countP Spec.active = 0 := by
      rw [List.countP_eq_zero]; intro p hp; rw [hz p hp]; simp
    omega
  rw [hI.closes, hI.drained hsd h0]; simp

/-- C15 (violated), raw backends. Closing a backend without an HTTP server does nothing: a
connection that is looked up after the close (e.g. one accepted just before `Shutdown` closed
the listener) is still accepted. -/
theorem raw_backend_close_violated :
    ¬ ∀ (life : Life) (before after : List Op), life.chanCloses = 0 → ∀ i : Nat,
      let s := ({ life := life } : St).run before
      let s' := (s.step .graceful).run after
      (∃ p, s'.conns[i]? = some p ∧ Spec.active p = true) →
      s.conns[i]? = some .looked ∨ ∃ p, s.conns[i]? = some p ∧ Spec.active p = true := by
  intro h
  have := h { server := false } [.arrive] [.lookup 0, .register 0] rfl 0 ⟨.registered, by decide, rfl⟩
  rcases this with h | ⟨p, hp, hp'⟩
  · revert h; decide
  · have : p = .new := by
      have : some p = some Phase.new := by rw [← hp]; rfl
      exact Option.some.inj this
    subst this; revert hp'; decide

/-- C15 (violated), hand-off. A connection that was given the backend just before the close and
counted just after it is sent to the closed channel: the handler panics and the connection is
dropped instead of being served. -/
theorem handoff_never_panics_violated :
    ¬ ∀ ops : List Op, Op.hard ∉ ops → ∀ i : Nat, (({} : St).run ops).conns[i]? ≠ some .crashed := by
  intro h
  exact h [.arrive, .lookup 0, .graceful, .register 0, .send 0] (by decide) 0 (by decide)

theorem open_while_active {s : St} (h : Inv s) (i : Nat) (ops : List Op) (hno : Op.hard ∉ ops)
    (hi : s.conns[i]? = some .registered ∨ s.conns[i]? = some .handed ∨ s.conns[i]? = some .ended)
    (ho : (s.conns[i]? = some .registered ∨ s.conns[i]? = some .handed) → s.life.chanCloses = 0) :
    (s.run ops).conns[i]? = some .registered ∨ (s.run ops).conns[i]? = some .handed ∨
      (s.run ops).conns[i]? = some .ended := by
  induction ops generalizing s with
  | nil => exact hi
  | cons op ops ih =>
    simp only [List.mem_cons, not_or] at hno
    have hlt : i < s.conns.length := by
      rcases hi with hi | hi | hi <;> exact (List.getElem?_eq_some_iff.mp hi).1
    have hI' := inv_step h op
    -- an active connection after the step keeps the channel open
    have keep : (s.step op).conns[i]? = s.conns[i]? → s.life.chanCloses = 0 →
        (s.conns[i]? = some .registered ∨ s.conns[i]? = some .handed) → (s.step op).life.chanCloses = 0 := by
      intro hsame h0 hact
      apply Classical.byContradiction
      intro h1
      have hpos : 0 < (s.step op).conns.countP Spec.active := by
        rw [List.countP_pos_iff]
        rcases hact with hact | hact
        · exact ⟨.registered, List.mem_of_getElem? (hsame.trans hact), rfl⟩
        · exact ⟨.handed, List.mem_of_getElem? (hsame.trans hact), rfl⟩
      have hcnt := hI'.count
      have hserv : s.life.server = true := by
        have := h.closes; rw [h0] at this
        cases hs : s.life.server with
        | true => rfl
        | false => rw [hs] at this; simp at this
      cases op with
      | hard => exact hno.1 rfl
      | arrive => exact h1 h0
      | lookup j => simp only [St.step] at h1; split at h1 <;> exact h1 h0
      | send j => simp only [St.step] at h1; split at h1 <;> exact h1 h0
      | register j =>
        simp only [St.step] at h1 hcnt hpos
        split at h1
        · rename_i hj
          rw [if_pos hj] at hcnt hpos
          obtain ⟨e1, e2, e3⟩ := inc_fields s.life 1
          rcases e3 with ⟨a, b, _⟩ | ⟨z, _⟩
          · simp only at h1; rw [b] at h1; exact h1 h0
          · simp only at hcnt hpos; rw [e1, z] at hcnt; omega
        · exact h1 h0
      | finish j =>
        simp only [St.step] at h1 hcnt hpos
        split at h1
        · rename_i hj
          rw [if_pos hj] at hcnt hpos
          obtain ⟨e1, e2, e3⟩ := inc_fields s.life (-1)
          rcases e3 with ⟨a, b, _⟩ | ⟨z, _⟩
          · simp only at h1; rw [b] at h1; exact h1 h0
          · simp only at hcnt hpos; rw [e1, z] at hcnt; omega
        · exact h1 h0
      | graceful =>
        simp only [St.step, Life.close, hserv, Bool.true_eq_false, Bool.false_eq_true, if_false] at h1 hcnt hpos
        split at h1
        · rename_i hz
          rw [if_pos hz] at hcnt
          simp only at hcnt; omega
        · exact h1 h0
    have same : ∀ (hsame : (s.step op).conns[i]? = s.conns[i]?),
        ((s.step op).run ops).conns[i]? = some .registered ∨ ((s.step op).run ops).conns[i]? = some .handed ∨
        ((s.step op).run ops).conns[i]? = some .ended := by
      intro hsame
      refine ih hI' hno.2 (by rw [hsame]; exact hi) ?_
      intro hact
      rw [hsame] at hact
      exact keep hsame (ho hact) hact
    cases op with
    | hard => exact absurd rfl hno.1
    | arrive => exact same (by simp only [St.step]; rw [List.getElem?_append_left hlt])
    | graceful => exact same rfl
    | lookup j =>
      apply same
      simp only [St.step]
      split
      · rename_i hj
        have : j ≠ i := by rintro rfl; rw [hj] at hi; simp at hi
        simp only [List.getElem?_set_ne this]
      · rfl
    | register j =>
      apply same
      simp only [St.step]
      split
      · rename_i hj
        have : j ≠ i := by rintro rfl; rw [hj] at hi; simp at hi
        simp only [List.getElem?_set_ne this]
      · rfl
    | send j =>
      by_cases hji : j = i
      · subst hji
        by_cases hj : s.conns[j]? = some .registered
        · have hz := ho (Or.inl hj)
          have hst : s.step (.send j) = { s with conns := s.conns.set j .handed } := by
            simp only [St.step, if_pos hj, hz, if_true]
          refine ih hI' hno.2 (Or.inr (Or.inl ?_)) ?_
          · rw [hst]; simp [hlt]
          · intro _; rw [hst]; exact hz
        · exact same (by simp only [St.step, if_neg hj])
      · apply same
        simp only [St.step]
        split
        · simp only [List.getElem?_set_ne hji]
        · rfl
    | finish j =>
      by_cases hji : j = i
      · subst hji
        by_cases hj : s.conns[j]? = some .registered ∨ s.conns[j]? = some .handed ∨ s.conns[j]? = some .crashed
        · have hst : (s.step (.finish j)).conns[j]? = some .ended := by
            simp only [St.step, if_pos hj]
            simp [hlt]
          refine ih hI' hno.2 (Or.inr (Or.inr hst)) ?_
          intro hc
          rw [hst] at hc
          simp at hc
        · exact same (by simp only [St.step, if_neg hj])
      · apply same
        simp only [St.step]
        split
        · simp only [List.getElem?_set_ne hji]
        · rfl

/-- C15 (partial), hand-off. A connection counted in flight while the channel was open is never
sent to a closed channel, unless there is a hard stop. Missing: connections counted after the
close (`handoff_never_panics_violated`). -/
theorem handoff_never_panics_partial (h3 : Bool) (before after : List Op) (hno : Op.hard ∉ after) (i : Nat) :
    let s := ({ life := { h3 := h3 } } : St).run before
    s.conns[i]? = some .registered → s.life.chanCloses = 0 → (s.run after).conns[i]? ≠ some .crashed := by
  intro s hi h0 hc
  have := open_while_active (inv_run (inv_init h3) before) i after hno (Or.inl hi) (fun _ => h0)
  rw [show (St.run { life := { h3 := h3 } } before).run after = s.run after from rfl] at this
  rw [hc] at this
  simp at this

/-- Non-vacuity: two connections, a graceful close in between, both served, channel closed at
the end. -/
example : (({} : St).run [.arrive, .arrive, .lookup 0, .register 0, .lookup 1, .register 1, .graceful,
      .send 0, .send 1, .arrive, .lookup 2, .finish 0, .finish 1]) =
    { life := { inFlight := 0, shutdown := true, server := false, chanCloses := 1 },
      conns := [.ended, .ended, .refused] } := by decide

/-! ## C86 -/

/-- C86 (violated). When the last in-flight connection ends after a graceful close, the backend
forgets its HTTP server but not its HTTP/3 server, and every later close, also a hard one,
returns early: the HTTP/3 server is never closed. -/
theorem http3_closed_violated :
    ¬ ∀ ops : List Op, (({ life := { h3 := true } } : St).run ops).life.chanCloses = 1 →
      (({ life := { h3 := true } } : St).run (ops ++ [.hard])).life.h3 = false := by
  intro h
  have := h [.arrive, .lookup 0, .register 0, .graceful, .finish 0] (by decide)
  revert this; decide

/-- C86 (partial). A hard close, or a graceful close with nothing in flight, does close it. -/
theorem http3_closed_partial (s : St) (hs : s.life.server = true) :
    (s.step .hard).life.h3 = false ∧ (s.life.inFlight = 0 → (s.step .graceful).life.h3 = false) := by
  constructor
  · simp [St.step, Life.close, hs]
  · intro h; simp [St.step, Life.close, hs, h]

/-! ## C16 -/

/-- C16, safety. The proxy is stopped only if the deadline passed, or at some moment since the
shutdown began no connection was left that shutdown waits for. -/
theorem shutdown_waits (s : Shut) (hw : s.waiter = .checking) (hd : s.deadline = false)
    (hst : s.stopped = false) (ops : List SOp) (h : (s.run ops).stopped = true) :
    SOp.deadline ∈ ops ∨ ∃ pre post, ops = pre ++ post ∧
      ∀ c ∈ (s.run pre).conns, c.state = .opened → c.counts = false := by
  suffices H : ∀ rev : List SOp,
      ((s.run rev.reverse).deadline = true → SOp.deadline ∈ rev.reverse) ∧
      ((s.run rev.reverse).waiter = .done → ∃ pre post, rev.reverse = pre ++ post ∧
        ∀ c ∈ (s.run pre).conns, c.state = .opened → c.counts = false) ∧
      ((s.run rev.reverse).stopped = true → SOp.deadline ∈ rev.reverse ∨
        ∃ pre post, rev.reverse = pre ++ post ∧
        ∀ c ∈ (s.run pre).conns, c.state = .opened → c.counts = false) by
    have := (H ops.reverse).2.2
    rw [List.reverse_reverse] at this
    exact this h
  intro rev
  induction rev with
  | nil => simp [Shut.run, hw, hd, hst]
  | cons op rev ih =>
    obtain ⟨i1, i2, i3⟩ := ih
    rw [List.reverse_cons]
    have hrun : s.run (rev.reverse ++ [op]) = (s.run rev.reverse).step op := by
      simp [Shut.run, List.foldl_append]
    rw [hrun]
    generalize hr : s.run rev.reverse = t at *
    have l1 : SOp.deadline ∈ rev.reverse → SOp.deadline ∈ rev.reverse ++ [op] := fun h => by simp [h]
    have l2 : (∃ pre post, rev.reverse = pre ++ post ∧
        ∀ c ∈ (s.run pre).conns, c.state = .opened → c.counts = false) →
        ∃ pre post, rev.reverse ++ [op] = pre ++ post ∧
        ∀ c ∈ (s.run pre).conns, c.state = .opened → c.counts = false := by
      rintro ⟨pre, post, e, h⟩
      exact ⟨pre, post ++ [op], by rw [e]; simp, h⟩
    have l3 : (SOp.deadline ∈ rev.reverse ∨ ∃ pre post, rev.reverse = pre ++ post ∧
        ∀ c ∈ (s.run pre).conns, c.state = .opened → c.counts = false) →
        (SOp.deadline ∈ rev.reverse ++ [op] ∨ ∃ pre post, rev.reverse ++ [op] = pre ++ post ∧
        ∀ c ∈ (s.run pre).conns, c.state = .opened → c.counts = false) := fun h => h.imp l1 l2
    have unchanged : (t.step op).deadline = t.deadline → (t.step op).stopped = t.stopped →
        ((t.step op).waiter = .done → t.waiter = .done) → _ := fun e1 e2 e3 =>
      (⟨fun h => l1 (i1 (e1 ▸ h)), fun h => l2 (i2 (e3 h)), fun h => l3 (i3 (e2 ▸ h))⟩ :
        ((t.step op).deadline = true → SOp.deadline ∈ rev.reverse ++ [op]) ∧
        ((t.step op).waiter = .done → ∃ pre post, rev.reverse ++ [op] = pre ++ post ∧
          ∀ c ∈ (s.run pre).conns, c.state = .opened → c.counts = false) ∧
        ((t.step op).stopped = true → SOp.deadline ∈ rev.reverse ++ [op] ∨
          ∃ pre post, rev.reverse ++ [op] = pre ++ post ∧
          ∀ c ∈ (s.run pre).conns, c.state = .opened → c.counts = false))
    cases op with
    | arrive c => exact unchanged rfl rfl id
    | raw i => apply unchanged <;> simp only [Shut.step] <;> split <;> first | rfl | exact id
    | remove i =>
      apply unchanged <;> simp only [Shut.step] <;> split <;>
        first | rfl | exact id | (split <;> first | rfl | exact id)
    | broadcast i =>
      apply unchanged <;> simp only [Shut.step] <;> split <;>
        first
        | rfl
        | exact id
        | (split <;> first | rfl | exact id | (dsimp only; split <;> first | exact id | simp))
    | check =>
      simp only [Shut.step]
      split
      · refine ⟨fun h => l1 (i1 h), ?_, fun h => l3 (i3 h)⟩
        intro hdone
        dsimp only at hdone
        split at hdone
        · cases hdone
        · rename_i hleft
          refine ⟨rev.reverse, [.check], rfl, ?_⟩
          rw [hr]
          intro c hc ho
          have : t.left = false := by simpa using hleft
          unfold Shut.left at this
          rw [List.any_eq_false] at this
          have := this c hc
          simpa [ho] using this
      · exact ⟨fun h => l1 (i1 h), fun h => l2 (i2 h), fun h => l3 (i3 h)⟩
    | park => apply unchanged <;> simp only [Shut.step] <;> split <;> first | rfl | exact id | simp
    | deadline =>
      refine ⟨fun _ => by simp, fun h => l2 (i2 h), fun _ => Or.inl (by simp)⟩
    | stop =>
      simp only [Shut.step]
      split
      · rename_i hc
        refine ⟨fun h => l1 (i1 h), fun h => l2 (i2 h), fun _ => ?_⟩
        rcases hc with hc | hc
        · exact Or.inr (l2 (i2 hc))
        · exact Or.inl (l1 (i1 hc))
      · exact ⟨fun h => l1 (i1 h), fun h => l2 (i2 h), fun h => l3 (i3 h)⟩

/-- C16 (in time). Once the deadline has passed, the next attempt to stop the proxy succeeds, whatever connections are
left. -/
theorem shutdown_deadline (s : Shut) (ops : List SOp) (h : SOp.deadline ∈ ops) :
    (s.run (ops ++ [.stop])).stopped = true := by
  have key : ∀ (ops : List SOp) (s : Shut), (SOp.deadline ∈ ops ∨ s.deadline = true) → (s.run ops).deadline = true := by
    intro ops
    induction ops with
    | nil => intro s h; rcases h with h | h
             · cases h
             · exact h
    | cons o os ih =>
      intro s h
      refine ih (s.step o) ?_
      rcases h with h | h
      · rcases List.mem_cons.1 h with h | h
        · subst h; exact .inr rfl
        · exact .inl h
      · right
        cases o <;> simp only [Shut.step] <;> try split
        all_goals first | exact h | rfl | (split <;> exact h)
  have hd := key ops s (.inl h)
  have e : s.run (ops ++ [.stop]) = (s.run ops).step .stop := by simp [Shut.run, List.foldl_append]
  rw [e]
  simp [Shut.step, hd]

example : SOp.deadline ∈ [SOp.arrive true, .check, .park, .deadline] ∧
    (({} : Shut).run [.arrive true, .check, .park, .stop]).stopped = false := by decide

/-- C16 (only what has ended). A connection counts as open until it is taken out of the tracker, whatever others do. -/
theorem shutdown_open (s : Shut) (i : Nat) (c : TC) (hi : s.conns[i]? = some c) (ho : c.state = .opened)
    (ops : List SOp) (h : SOp.remove i ∉ ops) : ∃ c', (s.run ops).conns[i]? = some c' ∧ c'.state = .opened := by
  induction ops generalizing s c with
  | nil => exact ⟨c, hi, ho⟩
  | cons o os ih =>
    have hlt := (List.getElem?_eq_some_iff.mp hi).1
    have step : ∃ c', (s.step o).conns[i]? = some c' ∧ c'.state = .opened := by
      cases o with
      | arrive b => exact ⟨c, by simp [Shut.step, List.getElem?_append_left hlt, hi], ho⟩
      | raw j =>
        simp only [Shut.step]
        split
        · rename_i d hd
          by_cases e : j = i
          · subst e
            rw [hi] at hd; cases hd
            exact ⟨{ c with counts := false }, by simp [List.getElem?_set_self hlt], ho⟩
          · exact ⟨c, by simp [List.getElem?_set_ne e, hi], ho⟩
        · exact ⟨c, hi, ho⟩
      | remove j =>
        have e : j ≠ i := by rintro rfl; simp at h
        simp only [Shut.step]
        split
        · split
          · exact ⟨c, by simp [List.getElem?_set_ne e, hi], ho⟩
          · exact ⟨c, hi, ho⟩
        · exact ⟨c, hi, ho⟩
      | broadcast j =>
        simp only [Shut.step]
        split
        · rename_i d hd
          split
          · rename_i hr
            have e : j ≠ i := by rintro rfl; rw [hi] at hd; cases hd; rw [ho] at hr; cases hr
            exact ⟨c, by simp [List.getElem?_set_ne e, hi], ho⟩
          · exact ⟨c, hi, ho⟩
        · exact ⟨c, hi, ho⟩
      | check => simp only [Shut.step]; split <;> exact ⟨c, hi, ho⟩
      | park => simp only [Shut.step]; split <;> exact ⟨c, hi, ho⟩
      | deadline => exact ⟨c, hi, ho⟩
      | stop => simp only [Shut.step]; split <;> exact ⟨c, hi, ho⟩
    obtain ⟨c', h1, h2⟩ := step
    exact ih (s.step o) c' h1 h2 (fun h' => h (List.mem_cons_of_mem _ h'))

example : let s := ({} : Shut).run [.arrive true, .arrive true]
    s.conns[1]? = some { counts := true } ∧ SOp.remove 1 ∉ [SOp.remove 0, .broadcast 0, .broadcast 1, .check] := by decide

/-- The waiting goroutine can finish by its own steps. -/
def Spec.finishes (s : Shut) : Prop :=
  ∃ ops : List SOp, (∀ o ∈ ops, o = .check ∨ o = .park) ∧ (s.run ops).waiter = .done

/-- Every connection is closed, nothing is outstanding. -/
def Spec.quiet (s : Shut) : Prop := ∀ c ∈ s.conns, c.state = .gone

theorem stuck (s : Shut) (h : s.waiter = .waiting) : ¬ Spec.finishes s := by
  rintro ⟨ops, ho, hd⟩
  have : ∀ (ops : List SOp) (s : Shut), s.waiter = .waiting → (∀ o ∈ ops, o = .check ∨ o = .park) →
      (s.run ops).waiter = .waiting := by
    intro ops
    induction ops with
    | nil => intro s h _; exact h
    | cons o ops ih =>
      intro s h ho
      apply ih (s.step o) _ (fun o h => ho o (by simp [h]))
      rcases ho o (by simp) with rfl | rfl <;> simp [Shut.step, h]
  rw [this ops s h ho] at hd
  cases hd

/-- C16 (violated). The closing connection broadcasts without holding the lock of the condition
variable: if that falls between the check and the wait, the wake-up is lost and the shutdown
hangs until its deadline although everything is closed. -/
theorem shutdown_terminates_violated :
    ¬ ∀ ops : List SOp, Spec.quiet (({} : Shut).run ops) → Spec.finishes (({} : Shut).run ops) := by
  intro h
  have := h [.arrive true, .check, .remove 0, .broadcast 0, .park] (by unfold Spec.quiet; decide)
  exact stuck _ (by decide) this

/-- C16 (violated), second way. A connection whose mode is not known yet makes the shutdown
wait; when it turns out to be a raw one nobody wakes the waiter, which then waits for the raw
connection to be closed. -/
theorem shutdown_ignores_raw_violated :
    ¬ ∀ ops : List SOp, (∀ c ∈ (({} : Shut).run ops).conns, c.state = .opened → c.counts = false) →
      Spec.finishes (({} : Shut).run ops) := by
  intro h
  have := h [.arrive true, .check, .park, .raw 0] (by decide)
  exact stuck _ (by decide) this

/-- No broadcast falls between the waiter's check and its wait, and no mode becomes known
late. -/
def Spec.disciplined : Shut → List SOp → Prop
  | _, [] => True
  | s, o :: ops =>
    (match o with
      | .broadcast _ => s.waiter ≠ .parking
      | .raw _ => False
      | _ => True) ∧ Spec.disciplined (s.step o) ops

/-- C16 (partial). Except for those two races, shutdown finishes once everything is closed:
whenever all connections are gone the waiter can finish by its own steps. -/
theorem shutdown_terminates_partial (ops : List SOp) (hd : Spec.disciplined {} ops)
    (hq : Spec.quiet (({} : Shut).run ops)) : Spec.finishes (({} : Shut).run ops) := by
  have key : ∀ (ops : List SOp) (s : Shut), Spec.disciplined s ops →
      (s.waiter = .waiting ∨ s.waiter = .parking → ∃ c ∈ s.conns, c.state ≠ .gone) →
      ((s.run ops).waiter = .waiting ∨ (s.run ops).waiter = .parking → ∃ c ∈ (s.run ops).conns, c.state ≠ .gone) := by
    intro ops
    induction ops with
    | nil => intro s _ h; exact h
    | cons o ops ih =>
      intro s hd h
      apply ih _ hd.2
      have hd1 := hd.1
      have setc : ∀ (i : Nat) (a b : TC), s.conns[i]? = some a → b.state ≠ .gone →
          (∃ c ∈ s.conns, c.state ≠ .gone) → ∃ c ∈ s.conns.set i b, c.state ≠ .gone := by
        intro i a b ha hb _
        have hlt := (List.getElem?_eq_some_iff.mp ha).1
        exact ⟨b, List.mem_set hlt b, hb⟩
      cases o with
      | arrive c =>
        intro hw
        obtain ⟨x, hx, hx'⟩ := h hw
        exact ⟨x, by simp [Shut.step, hx], hx'⟩
      | raw i => exact hd1.elim
      | remove i =>
        simp only [Shut.step]
        split
        · rename_i c hc
          split
          · intro hw
            exact setc i c _ hc (by simp) (h hw)
          · exact h
        · exact h
      | broadcast i =>
        simp only [Shut.step]
        split
        · rename_i c hc
          split
          · dsimp only at hd1 ⊢
            intro hw
            split at hw
            · simp at hw
            · rename_i hnw
              rcases hw with hw | hw
              · exact absurd hw hnw
              · exact absurd hw hd1
          · exact h
        · exact h
      | check =>
        simp only [Shut.step]
        split
        · intro hw
          dsimp only at hw ⊢
          split at hw
          · rename_i hl
            obtain ⟨c, hc, hc'⟩ := List.any_eq_true.mp hl
            simp at hc'
            exact ⟨c, hc, by simp [hc'.2]⟩
          · simp at hw
        · exact h
      | park =>
        simp only [Shut.step]
        split
        · rename_i hp
          intro _; exact h (Or.inr hp)
        · exact h
      | deadline => exact h
      | stop => simp only [Shut.step]; split <;> exact h
  have hk := key ops {} hd (by simp)
  generalize ({} : Shut).run ops = s at *
  have hno : ¬ ∃ c ∈ s.conns, c.state ≠ .gone := by
    rintro ⟨c, hc, h⟩; exact h (hq c hc)
  cases hw : s.waiter with
  | done => exact ⟨[], by simp, hw⟩
  | waiting => exact absurd (hk (Or.inl hw)) hno
  | parking => exact absurd (hk (Or.inr hw)) hno
  | checking =>
    refine ⟨[.check], by simp, ?_⟩
    have hleft : s.left = false := by
      unfold Shut.left
      rw [List.any_eq_false]
      intro c hc
      simp [hq c hc]
    simp [Shut.run, Shut.step, hw, hleft]

/-- Non-vacuity: the waiter sleeps, the connection closes, the waiter finishes. -/
example : (({} : Shut).run [.arrive true, .arrive false, .check, .park, .remove 0, .broadcast 0, .check, .stop]) =
    { conns := [{ counts := true, state := .gone }, { counts := false }], waiter := .done, stopped := true } := by
  decide
example : Spec.disciplined {} [.arrive true, .arrive false, .check, .park, .remove 0, .broadcast 0, .check] := by
  simp [Spec.disciplined, Shut.step, Shut.left]

end Verif.Lifecycle
