import Verif.Model.Counter
/-
C48: rates are computed over the requested window.
-/
namespace Verif.Counter

/-! ## Specification: a log of increments -/

/-- What happened so far: the current tick (never goes backwards even if the wall clock
does), and the increments with the tick they were counted in. -/
structure Spec.Log where
  tick : Nat
  events : List (Nat × Int)

def Spec.Log.step (rez : Nat) (l : Spec.Log) : Op → Spec.Log
  | .incr now d => let t := max l.tick (now / rez); ⟨t, (t, d) :: l.events⟩
  | .rate now _ => ⟨max l.tick (now / rez), l.events⟩

def Spec.Log.run (rez : Nat) (l : Spec.Log) (ops : List Op) : Spec.Log :=
  ops.foldl (Spec.Log.step rez) l

/-- Sum of the increments counted in ticks `≤ t`. -/
def Spec.sumUpTo (t : Int) (ev : List (Nat × Int)) : Int :=
  ((ev.filter fun e => (e.1 : Int) ≤ t).map (·.2)).sum

/-- Sum of the increments counted in ticks `t` with `lo < t`. -/
def Spec.sumAfter (lo : Int) (ev : List (Nat × Int)) : Int :=
  ((ev.filter fun e => lo < (e.1 : Int)).map (·.2)).sum

/-- Sum of all increments. -/
def Spec.total (ev : List (Nat × Int)) : Int := (ev.map (·.2)).sum

/-! ## Helper lemmas -/

theorem sum_split (t : Int) (ev : List (Nat × Int)) :
    Spec.total ev = Spec.sumUpTo t ev + Spec.sumAfter t ev := by
  induction ev with
  | nil => rfl
  | cons e ev ih =>
    unfold Spec.total Spec.sumUpTo Spec.sumAfter at *
    simp only [List.map_cons, List.sum_cons, ih, List.filter_cons]
    by_cases h : (e.1 : Int) ≤ t
    · have h' : ¬ t < (e.1 : Int) := by omega
      simp [h, h']; omega
    · have h' : t < (e.1 : Int) := by omega
      simp [h, h']; omega

theorem sumUpTo_ge (t : Int) (ev : List (Nat × Int)) (h : ∀ e ∈ ev, (e.1 : Int) ≤ t) :
    Spec.sumUpTo t ev = Spec.total ev := by
  unfold Spec.sumUpTo Spec.total
  rw [List.filter_eq_self.mpr (by simpa using h)]

/-- The ring after `n` shifts. -/
theorem shift_spec (v : Int) (size : Nat) (hs : 0 < size) (n : Nat) (head : Nat) (slots : Nat → Int)
    (hh : head < size) (hn : n ≤ size) (hv : slots head = v) :
    (shift v size n (head, slots)).1 = (head + n) % size ∧
    ∀ j, j < size →
      (shift v size n (head, slots)).2 ((head + n + size - j) % size) =
        if j ≤ n then v else slots ((head + n + size - j) % size) := by
  induction n generalizing head slots with
  | zero =>
    simp only [shift, Nat.add_zero]
    refine ⟨(Nat.mod_eq_of_lt hh).symm, ?_⟩
    intro j hj
    split
    · have : j = 0 := by omega
      subst this
      rw [Nat.sub_zero, Nat.add_mod_right, Nat.mod_eq_of_lt hh, hv]
    · rfl
  | succ n ih =>
    simp only [shift]
    have h2 : (head + 1) % size < size := Nat.mod_lt _ hs
    obtain ⟨i1, i2⟩ := ih ((head + 1) % size)
      (fun i => if i = (head + 1) % size then v else slots i) h2 (by omega) (by simp)
    constructor
    · rw [i1, Nat.mod_add_mod]; congr 1; omega
    · intro j hj
      have e1 : (head + (n + 1) + size - j) % size = ((head + 1) % size + n + size - j) % size := by
        have : head + (n + 1) + size - j = (head + 1) + (n + size - j) := by omega
        rw [this, ← Nat.mod_add_mod]; congr 1; omega
      rw [e1, i2 j hj]
      by_cases h : j ≤ n
      · simp [h, show j ≤ n + 1 by omega]
      · simp only [h, if_false]
        by_cases h' : j ≤ n + 1
        · have hj1 : j = n + 1 := by omega
          subst hj1
          rw [← e1]
          have : (head + (n + 1) + size - (n + 1)) % size = head := by
            have : head + (n + 1) + size - (n + 1) = head + size := by omega
            rw [this, Nat.add_mod_right, Nat.mod_eq_of_lt hh]
          rw [this, if_pos (Nat.le_refl _)]
          split
          · rfl
          · exact hv
        · rw [if_neg h', ← e1]
          have : (head + (n + 1) + size - j) % size ≠ (head + 1) % size := by
            intro hc
            -- head+1 and head+1+(n+size-j) with 0 < n+size-j < size
            have e : head + (n + 1) + size - j = (head + 1) + (n + size - j) := by omega
            rw [e] at hc
            have hd : (n + size - j) % size = 0 := by
              have := Nat.sub_mod_eq_zero_of_mod_eq hc
              simpa using this
            have hlt : n + size - j < size := by omega
            rw [Nat.mod_eq_of_lt hlt] at hd
            omega
          rw [if_neg this]

/-- Connection between the ring buffer and the log. -/
structure Inv (start : Nat) (c : Counter) (l : Spec.Log) : Prop where
  size_pos : 0 < c.size
  rez_pos : 0 < c.rez
  head_lt : c.head < c.size
  time_eq : c.time = l.tick * c.rez
  steps_eq : c.steps + start = l.tick
  ev_le : ∀ e ∈ l.events, e.1 ≤ l.tick
  ev_ge : ∀ e ∈ l.events, start ≤ e.1
  slots_eq : ∀ j, j < c.size →
    c.slots ((c.head + c.size - j) % c.size) = Spec.sumUpTo ((l.tick : Int) - j) l.events

theorem truncate_eq (t rez : Nat) : truncate t rez = (t / rez) * rez := by
  unfold truncate
  have := Nat.div_add_mod t rez
  rw [Nat.mul_comm]
  omega

theorem inv_head {start c l} (h : Inv start c l) : c.slots c.head = Spec.total l.events := by
  have h0 := h.slots_eq 0 h.size_pos
  simp only [Nat.sub_zero, Nat.add_mod_right, Nat.mod_eq_of_lt h.head_lt] at h0
  rw [h0]
  apply sumUpTo_ge
  intro e he
  have := h.ev_le e he
  simp; omega

theorem inv_advance {start c l} (h : Inv start c l) (now : Nat) :
    Inv start (c.advance now) ⟨max l.tick (now / c.rez), l.events⟩ ∧
    (c.advance now).rez = c.rez ∧ (c.advance now).size = c.size := by
  unfold Counter.advance
  simp only [truncate_eq]
  split
  · rename_i hn
    rw [h.time_eq] at hn
    have : now / c.rez ≤ l.tick := by
      apply Nat.le_of_not_lt
      intro hc
      exact hn (Nat.mul_lt_mul_of_pos_right hc h.rez_pos)
    rw [Nat.max_eq_left this]
    exact ⟨h, rfl, rfl⟩
  · rename_i hn
    have hn : now / c.rez * c.rez > c.time := by omega
    rw [h.time_eq] at hn
    have hlt : l.tick < now / c.rez := Nat.lt_of_mul_lt_mul_right hn
    have hsteps : (now / c.rez * c.rez - c.time) / c.rez = now / c.rez - l.tick := by
      rw [h.time_eq, ← Nat.sub_mul, Nat.mul_div_cancel _ h.rez_pos]
    rw [hsteps, Nat.max_eq_right (Nat.le_of_lt hlt)]
    refine ⟨?_, rfl, rfl⟩
    generalize hk : min (now / c.rez - l.tick) c.size = k
    have hkn : k ≤ c.size := by omega
    obtain ⟨s1, s2⟩ := shift_spec (c.slots c.head) c.size h.size_pos k c.head c.slots h.head_lt hkn rfl
    refine ⟨h.size_pos, h.rez_pos, ?_, rfl, ?_, ?_, h.ev_ge, ?_⟩
    · simp only [s1]; exact Nat.mod_lt _ h.size_pos
    · have := h.steps_eq; simp only; omega
    · intro e he; have := h.ev_le e he; simp only; omega
    · intro j hj
      simp only at hj ⊢
      rw [s1]
      have e1 : ((c.head + k) % c.size + c.size - j) % c.size = (c.head + k + c.size - j) % c.size := by
        have a1 : (c.head + k) % c.size + c.size - j = (c.head + k) % c.size + (c.size - j) := by omega
        have a2 : c.head + k + c.size - j = c.head + k + (c.size - j) := by omega
        rw [a1, a2, Nat.mod_add_mod]
      rw [e1, s2 j hj]
      split
      · rename_i hjk
        rw [inv_head h]
        symm
        apply sumUpTo_ge
        intro e he
        have := h.ev_le e he
        omega
      · rename_i hjk
        have hk' : k = now / c.rez - l.tick := by omega
        have := h.slots_eq (j - k) (by omega)
        have e2 : c.head + k + c.size - j = c.head + c.size - (j - k) := by omega
        rw [e2, this]
        congr 1
        omega

theorem inv_incr {start c l} (h : Inv start c l) (now : Nat) (d : Int) :
    Inv start (c.incr now d) (l.step c.rez (.incr now d)) ∧
    (c.incr now d).rez = c.rez ∧ (c.incr now d).size = c.size := by
  obtain ⟨ha, hr, hsz⟩ := inv_advance h now
  unfold Counter.incr Spec.Log.step
  generalize c.advance now = c' at *
  refine ⟨⟨ha.size_pos, ha.rez_pos, ha.head_lt, ha.time_eq, ha.steps_eq, ?_, ?_, ?_⟩, hr, hsz⟩
  · intro e he
    simp only [List.mem_cons] at he
    rcases he with rfl | he
    · simp
    · exact ha.ev_le e he
  · intro e he
    simp only [List.mem_cons] at he
    rcases he with rfl | he
    · have := ha.steps_eq; simp only at this; simp only; omega
    · exact ha.ev_ge e he
  · intro j hj
    simp only at hj ⊢
    by_cases h0 : j = 0
    · subst h0
      have e : (c'.head + c'.size - 0) % c'.size = c'.head := by
        rw [Nat.sub_zero, Nat.add_mod_right, Nat.mod_eq_of_lt ha.head_lt]
      rw [if_pos e, inv_head ha]
      rw [sumUpTo_ge]
      · simp [Spec.total]; omega
      · intro e he
        simp only [List.mem_cons] at he
        rcases he with rfl | he
        · simp
        · have := ha.ev_le e he; simp only at this; simp; omega
    · have e : (c'.head + c'.size - j) % c'.size ≠ c'.head := by
        intro hc
        by_cases hjh : j ≤ c'.head
        · have : c'.head + c'.size - j = (c'.head - j) + c'.size := by omega
          rw [this, Nat.add_mod_right, Nat.mod_eq_of_lt (by have := ha.head_lt; omega)] at hc
          omega
        · rw [Nat.mod_eq_of_lt (by omega)] at hc
          omega
      rw [if_neg e, ha.slots_eq j hj]
      simp only [Spec.sumUpTo, List.filter_cons]
      rw [if_neg]
      simp; omega

theorem inv_rate {start c l} (h : Inv start c l) (now p : Nat) :
    Inv start (c.rate now p).1 (l.step c.rez (.rate now p)) ∧
    (c.rate now p).1.rez = c.rez ∧ (c.rate now p).1.size = c.size := by
  have := inv_advance h now
  unfold Counter.rate Spec.Log.step
  dsimp only
  split <;> exact this

theorem inv_new {maxPeriod rez now : Nat} {c : Counter} (h : new maxPeriod rez now = some c) :
    Inv (now / rez) c ⟨now / rez, []⟩ ∧ c.rez = rez ∧ c.size = maxPeriod / rez + 1 := by
  unfold new at h
  split at h
  · cases h
  · split at h
    · cases h
    · cases h
      refine ⟨⟨by simp, by simp; omega, by simp, by simp [truncate_eq], by simp, by simp, by simp, ?_⟩, rfl, rfl⟩
      intro j _
      rfl

theorem inv_run {start : Nat} (ops : List Op) : ∀ {c l}, Inv start c l →
    Inv start (c.run ops) (l.run c.rez ops) ∧ (c.run ops).rez = c.rez ∧ (c.run ops).size = c.size := by
  induction ops with
  | nil => intro c l h; exact ⟨h, rfl, rfl⟩
  | cons op ops ih =>
    intro c l h
    have h1 : Inv start (c.step op) (l.step c.rez op) ∧ (c.step op).rez = c.rez ∧
        (c.step op).size = c.size := by
      cases op with
      | incr now d => exact inv_incr h now d
      | rate now p => exact inv_rate h now p
    obtain ⟨h2, h3, h4⟩ := ih h1.1
    simp only [Counter.run, Spec.Log.run, List.foldl_cons] at *
    rw [h1.2.1] at h2 h3
    rw [h1.2.2] at h4
    exact ⟨h2, h3, h4⟩

/-! ## C48 -/

/-- C48 (creation). A counter is made for every resolution and period that need at most a thousand slots,
that is for periods of less than a thousand ticks, and for no others. -/
theorem counter_made_iff (maxPeriod rez now : Nat) :
    (∃ c, new maxPeriod rez now = some c) ↔ maxPeriod < 1000 * rez := by
  unfold new
  by_cases h0 : rez = 0
  · subst h0; simp
  · rw [if_neg h0]
    have hd : maxPeriod / rez + 1 > 1000 ↔ ¬ maxPeriod < 1000 * rez := by
      have := Nat.div_lt_iff_lt_mul (x := maxPeriod) (y := 1000) (Nat.pos_of_ne_zero h0)
      omega
    by_cases h1 : maxPeriod < 1000 * rez
    · rw [if_neg (fun h => hd.1 h h1)]; exact ⟨fun _ => h1, fun _ => ⟨_, rfl⟩⟩
    · rw [if_pos (hd.2 h1)]; simp [h1]

/-- Non-vacuity: the period of an hour in ticks of ten seconds, and the first period that is too long. -/
example : (∃ c, new 3600 10 5 = some c) ∧ ¬ ∃ c, new 10000 10 5 = some c :=
  ⟨(counter_made_iff ..).2 (by decide), fun h => absurd ((counter_made_iff ..).1 h) (by decide)⟩

/-- C48 (value). After any sequence of calls, with any clock readings (even going backwards),
the reported value is the sum of all increments. -/
theorem counter_value_exact (maxPeriod rez t0 : Nat) (c : Counter)
    (h : new maxPeriod rez t0 = some c) (ops : List Op) :
    (c.run ops).value = Spec.total (Spec.Log.run rez ⟨t0 / rez, []⟩ ops).events := by
  obtain ⟨h1, h2, h3⟩ := inv_new h
  obtain ⟨i1, _, _⟩ := inv_run ops h1
  rw [h2] at i1
  exact inv_head i1

/-- C48 (violated as stated). For a period longer than the one the counter was created for,
once the counter has lived that long, the reported rate is 0 whatever was counted: the slot
compared with is the current one. -/
theorem counter_rate_violated :
    ¬ ∀ (maxPeriod rez t0 : Nat) (c : Counter), new maxPeriod rez t0 = some c →
      ∀ (ops : List Op) (now period : Nat),
        let l := (Spec.Log.run rez ⟨t0 / rez, []⟩ (ops ++ [.rate now period]))
        ((c.run ops).rate now period).2.1 =
          Spec.sumAfter ((l.tick : Int) - min (period / rez) (l.tick - t0 / rez)) l.events := by
  intro h
  have := h 2 1 0 _ rfl [.incr 3 5] 3 3
  revert this; decide

/-- C48. For every counter, every history of increments with any clock readings, and every
period up to the one the counter was created for: the rate reported is the sum of exactly the
increments counted in the last `steps` ticks divided by the length of those ticks, where
`steps` is the whole number of ticks in the period, or the age of the counter if that is
less. -/
theorem counter_rate_partial (maxPeriod rez t0 : Nat) (c : Counter)
    (h : new maxPeriod rez t0 = some c) (ops : List Op) (now period : Nat)
    (hp : period ≤ maxPeriod) :
    let l := (Spec.Log.run rez ⟨t0 / rez, []⟩ (ops ++ [.rate now period]))
    let steps := min (period / rez) (l.tick - t0 / rez)
    ((c.run ops).rate now period).2 =
      (Spec.sumAfter ((l.tick : Int) - steps) l.events, steps * rez) ∨
    (steps = 0 ∧ ((c.run ops).rate now period).2 = (0, 0)) := by
  obtain ⟨h1, h2, h3⟩ := inv_new h
  obtain ⟨i1, i2, i3⟩ := inv_run ops h1
  rw [h2] at i1 i2
  obtain ⟨a1, a2, a3⟩ := inv_advance i1 now
  have hsz : period / rez < c.size := by
    rw [h3]
    have := Nat.div_le_div_right (c := rez) hp
    omega
  have hl : (Spec.Log.run rez ⟨t0 / rez, []⟩ (ops ++ [.rate now period])) =
      ⟨max (Spec.Log.run rez ⟨t0 / rez, []⟩ ops).tick (now / rez),
        (Spec.Log.run rez ⟨t0 / rez, []⟩ ops).events⟩ := by
    simp [Spec.Log.run, List.foldl_append, Spec.Log.step]
  rw [hl]
  simp only
  unfold Counter.rate
  simp only [i2] at a1 a2
  generalize hc : (c.run ops).advance now = c' at *
  generalize hll : (⟨max (Spec.Log.run rez ⟨t0 / rez, []⟩ ops).tick (now / rez),
        (Spec.Log.run rez ⟨t0 / rez, []⟩ ops).events⟩ : Spec.Log) = l at *
  have ht : max (Spec.Log.run rez ⟨t0 / rez, []⟩ ops).tick (now / rez) = l.tick := by rw [← hll]
  have he : (Spec.Log.run rez ⟨t0 / rez, []⟩ ops).events = l.events := by rw [← hll]
  rw [ht, he]
  have hst := a1.steps_eq
  have hs : min (period / c'.rez) (min c'.steps c'.size) = min (period / rez) (l.tick - t0 / rez) := by
    rw [a2, a3, i3]
    omega
  dsimp only
  rw [hs]
  generalize hk : min (period / rez) (l.tick - t0 / rez) = k
  split
  · right; exact ⟨by assumption, rfl⟩
  · left
    simp only
    have hks : k < c'.size := by rw [a3, i3]; omega
    rw [inv_head a1, a1.slots_eq k hks, sum_split ((l.tick : Int) - k) l.events, a2]
    congr 1
    omega

/-- Non-trivial instance: a counter of 3 ticks, increments at ticks 1, 2, 4 and a rate over
two ticks asked at tick 5 sees only the last one. -/
example : (((new 30 10 0).map fun c =>
    ((c.run [.incr 10 100, .incr 25 20, .incr 41 3]).rate 57 20).2)) = some (3, 20) := by decide

/-- C48 (window). A counter is created only with a positive resolution, holds at most 1000 slots,
and its window covers more than the requested period. -/
theorem counter_window (maxPeriod rez now : Nat) (c : Counter) (h : new maxPeriod rez now = some c) :
    0 < rez ∧ c.size ≤ 1000 ∧ maxPeriod < c.size * rez := by
  unfold new at h
  split at h
  · cases h
  · split at h
    · cases h
    · cases h
      refine ⟨by omega, by simp only; omega, ?_⟩
      simp only
      have := Nat.div_add_mod maxPeriod rez
      have := Nat.mod_lt maxPeriod (show 0 < rez by omega)
      rw [Nat.add_mul, Nat.mul_comm]; omega

example : (new 86400 600 5).map (·.size) = some 145 := by decide

end Verif.Counter
