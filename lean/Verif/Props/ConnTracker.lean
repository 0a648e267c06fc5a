import Verif.Model.ConnTracker
/-
C09: at most MaxOpen connections are served.
-/
namespace Verif.ConnTracker

/-- Connections past the limit check and not closed yet. -/
def Spec.served (t : Tracker) : Nat := (t.conns.filter (·.admitted)).length

/-- Largest limit configured at any time. -/
def Spec.limits (m : Int) (ops : List Op) : List Int :=
  m :: ops.filterMap fun | .reconfigure n => some n | _ => none

/-- Every entry was told at least the number of entries added no later than it. -/
def Ordered : List Entry → Prop
  | [] => True
  | e :: t => t.length + 1 ≤ e.numOpen ∧ Ordered t

theorem ordered_filter (p : Entry → Bool) (l : List Entry) (h : Ordered l) :
    Ordered (l.filter p) := by
  induction l with
  | nil => simp [Ordered]
  | cons e t ih =>
    simp only [List.filter_cons]
    obtain ⟨h1, h2⟩ := h
    split
    · refine ⟨?_, ih h2⟩
      have := List.length_filter_le p t
      omega
    · exact ih h2

theorem ordered_map (f : Entry → Entry) (hf : ∀ e, (f e).numOpen = e.numOpen) (l : List Entry)
    (h : Ordered l) : Ordered (l.map f) := by
  induction l with
  | nil => simp [Ordered]
  | cons e t ih =>
    obtain ⟨h1, h2⟩ := h
    exact ⟨by simp [hf]; omega, ih h2⟩

theorem served_bound (l : List Entry) (b : Int) (h : Ordered l)
    (ha : ∀ e ∈ l, e.admitted = true → (e.numOpen : Int) < b) :
    l.filter (·.admitted) = [] ∨ ((l.filter (·.admitted)).length : Int) < b := by
  induction l with
  | nil => left; rfl
  | cons e t ih =>
    obtain ⟨h1, h2⟩ := h
    simp only [List.filter_cons]
    split
    · right
      rename_i hadm
      have := ha e (by simp) hadm
      have hl := List.length_filter_le (fun e : Entry => e.admitted) t
      simp only [List.length_cons]
      omega
    · exact ih h2 (fun e he => ha e (by simp [he]))

structure Inv (b : Int) (t : Tracker) : Prop where
  ord : Ordered t.conns
  adm : ∀ e ∈ t.conns, e.admitted = true → (e.numOpen : Int) < b
  lim : t.maxOpen ≤ b

theorem inv_step {b : Int} {t : Tracker} (h : Inv b t) (op : Op)
    (hop : ∀ n, op = .reconfigure n → n ≤ b) : Inv b (t.step op) := by
  obtain ⟨h1, h2, h3⟩ := h
  cases op with
  | arrive k =>
    refine ⟨⟨?_, ordered_filter _ _ h1⟩, ?_, h3⟩
    · exact Nat.le_refl _
    · intro e he
      simp only [Tracker.step, List.mem_cons, List.mem_filter] at he
      rcases he with rfl | he
      · simp
      · exact h2 e he.1
  | check k =>
    refine ⟨?_, ?_, h3⟩
    · simp only [Tracker.step]
      apply ordered_map _ _ _ h1
      intro e; split <;> rfl
    · intro e he
      simp only [Tracker.step, List.mem_map] at he
      obtain ⟨e', he', rfl⟩ := he
      split
      · rename_i hc; intro _; simp only; omega
      · exact h2 e' he'
  | close k =>
    refine ⟨ordered_filter _ _ h1, ?_, h3⟩
    intro e he
    simp only [Tracker.step, List.mem_filter] at he
    exact h2 e he.1
  | reconfigure n => exact ⟨h1, h2, hop n rfl⟩

theorem inv_run {b : Int} (ops : List Op) {t : Tracker} (h : Inv b t)
    (hops : ∀ n ∈ Spec.limits t.maxOpen ops, n ≤ b) : Inv b (t.run ops) := by
  induction ops generalizing t with
  | nil => exact h
  | cons op ops ih =>
    simp only [Tracker.run, List.foldl_cons]
    have h' : Inv b (t.step op) := inv_step h op (by rintro n rfl; apply hops; simp [Spec.limits])
    apply ih h'
    intro n hn
    simp only [Spec.limits, List.mem_cons] at hn
    rcases hn with rfl | hn
    · exact h'.lim
    · apply hops
      simp only [Spec.limits, List.filterMap_cons, List.mem_cons]
      right
      split
      · exact hn
      · exact List.mem_cons_of_mem _ hn

/-- C09 (bound). For every interleaving of arrivals, limit checks, closes and configuration
changes, the number of connections being served never exceeds the largest limit that was
configured (it is in fact always smaller, or nothing is served). -/
theorem maxopen_never_exceeded (m b : Int) (ops : List Op)
    (hb : ∀ n ∈ Spec.limits m ops, n ≤ b) :
    Spec.served (Tracker.run { maxOpen := m } ops) = 0 ∨
    (Spec.served (Tracker.run { maxOpen := m } ops) : Int) < b := by
  have h := inv_run (b := b) ops (t := { maxOpen := m })
    ⟨trivial, by simp, hb m (by simp [Spec.limits])⟩ hb
  rcases served_bound _ b h.ord h.adm with h0 | h1
  · left; simp [Spec.served, h0]
  · right; exact h1

/-- C09 (usability, violated). Whatever limit is configured, that many connections are never
served at once: a limit of 1 serves nobody. -/
theorem maxopen_reachable_violated :
    ¬ ∃ (m : Int), 1 ≤ m ∧ ∃ ops : List Op, (∀ n, Op.reconfigure n ∉ ops) ∧
        (Spec.served (Tracker.run { maxOpen := m } ops) : Int) = m := by
  rintro ⟨m, hm, ops, hno, hs⟩
  have := maxopen_never_exceeded m m ops (by
    intro n hn
    simp only [Spec.limits, List.mem_cons, List.mem_filterMap] at hn
    rcases hn with rfl | ⟨op, hop, he⟩
    · exact Int.le_refl _
    · cases op <;> simp at he
      subst he
      exact absurd hop (hno _))
  omega

/-- Schedule in which `n` connections arrive one after the other and are checked. -/
def Spec.fill : Nat → List Op
  | 0 => []
  | n + 1 => Spec.fill n ++ [.arrive n, .check n]

theorem fill_served (m : Int) (n : Nat) (h : (n : Int) < m) :
    (Tracker.run { maxOpen := m } (Spec.fill n)).maxOpen = m ∧
    (Tracker.run { maxOpen := m } (Spec.fill n)).conns.length = n ∧
    (∀ e ∈ (Tracker.run { maxOpen := m } (Spec.fill n)).conns, e.key < n ∧ e.admitted = true) := by
  induction n with
  | zero => simp [Spec.fill, Tracker.run]
  | succ n ih =>
    obtain ⟨i1, i2, i3⟩ := ih (by omega)
    simp only [Spec.fill, Tracker.run, List.foldl_append, List.foldl_cons, List.foldl_nil] at *
    generalize List.foldl Tracker.step { maxOpen := m } (Spec.fill n) = t at *
    have hf : t.conns.filter (·.key ≠ n) = t.conns := by
      apply List.filter_eq_self.mpr
      intro e he
      have := (i3 e he).1
      simp; omega
    simp only [Tracker.step, hf, i1, i2]
    refine ⟨trivial, by simp [i2], ?_⟩
    intro e he
    simp only [List.mem_map, List.mem_cons] at he
    obtain ⟨e', he', rfl⟩ := he
    rcases he' with rfl | he'
    · have h' : ((n + 1 : Nat) : Int) < m := h
      rw [if_pos ⟨rfl, by show ¬ ((n + 1 : Nat) : Int) ≥ m; omega⟩]
      exact ⟨by show n < n + 1; omega, rfl⟩
    · have := i3 e' he'
      rw [if_neg (by omega)]
      exact ⟨by omega, this.2⟩

/-- C09 (usability, partial). Any number of connections below the limit can be served at
once. Missing from the full statement: the limit itself is never reached. -/
theorem maxopen_usable_partial (m : Int) (n : Nat) (h : (n : Int) < m) :
    ∃ ops : List Op, (∀ k, Op.reconfigure k ∉ ops) ∧
      Spec.served (Tracker.run { maxOpen := m } ops) = n := by
  refine ⟨Spec.fill n, ?_, ?_⟩
  · intro k
    induction n with
    | zero => simp [Spec.fill]
    | succ n ih => simp [Spec.fill]; exact ih (by omega)
  · obtain ⟨_, h2, h3⟩ := fill_served m n h
    unfold Spec.served
    rw [List.filter_eq_self.mpr (fun e he => (h3 e he).2), h2]

/-- Once all connections are closed nothing is tracked any more. -/
theorem tracker_drains (t : Tracker) (ks : List Nat) (h : ∀ e ∈ t.conns, e.key ∈ ks) :
    (t.run (ks.map .close)).conns = [] := by
  induction ks generalizing t with
  | nil =>
    simp only [List.map_nil, Tracker.run, List.foldl_nil]
    apply List.eq_nil_iff_forall_not_mem.mpr
    intro e he
    exact absurd (h e he) (by simp)
  | cons k ks ih =>
    simp only [List.map_cons, Tracker.run, List.foldl_cons]
    apply ih
    intro e he
    simp only [Tracker.step, List.mem_filter] at he
    have := h e he.1
    simp at this he
    rcases this with h' | h'
    · exact absurd h' he.2
    · exact h'

/-- Limit 3: two connections are served, the third is refused, and one more fits after a
close. -/
example : (Tracker.run { maxOpen := 3 } [.arrive 1, .arrive 2, .check 2, .check 1, .arrive 3,
    .check 3, .close 3, .close 1, .arrive 4, .check 4]) =
    { maxOpen := 3, conns := [⟨4, 2, true⟩, ⟨2, 2, true⟩] } := by decide

end Verif.ConnTracker
