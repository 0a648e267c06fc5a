import Verif.Model.Spin
/-!
# C170: the loops that accept connections go on after errors, but do not wait
-/
namespace Verif.Spin

namespace Spec

/-- The connections among the first `n` answers, before the listener was closed. -/
def accepted (l : Listener) : Nat → List Nat
  | 0 => []
  | n + 1 => accepted l n ++
    match (l n).1 with
    | .conn c => if ∀ m, m < n → (l m).1 ≠ .closed then [c] else []
    | _ => []

/-- The listener is not closed in the first `n` answers. -/
def Open (l : Listener) (n : Nat) : Prop := ∀ m, m < n → (l m).1 ≠ .closed

end Spec

theorem open_succ {l : Listener} {n : Nat} : Spec.Open l (n + 1) ↔ Spec.Open l n ∧ (l n).1 ≠ .closed := by
  unfold Spec.Open
  constructor
  · intro h
    exact ⟨fun m hm => h m (by omega), h n (by omega)⟩
  · rintro ⟨h1, h2⟩ m hm
    by_cases e : m = n
    · exact e ▸ h2
    · exact h1 m (by omega)

/-- C170. Each connection gets a handler, in the order of their arrival, whatever errors were before it; the loop ends when the
listener is closed, and only then. -/
theorem goes_on (l : Listener) (n : Nat) :
    (loop l n).handled = Spec.accepted l n ∧ ((loop l n).running = true ↔ Spec.Open l n) := by
  induction n with
  | zero => exact ⟨rfl, fun _ m hm => absurd hm (by omega), fun _ => rfl⟩
  | succ n ih =>
    obtain ⟨ih1, ih2⟩ := ih
    rw [open_succ, loop, Spec.accepted]
    unfold round
    by_cases hr : (loop l n).running = true
    · have ho := ih2.1 hr
      rw [if_pos hr]
      cases ha : (l n).1 with
      | conn c =>
        dsimp only
        rw [if_pos (show ∀ m, m < n → (l m).1 ≠ .closed from ho), ih1]
        exact ⟨rfl, fun _ => ⟨ho, by simp⟩, fun _ => hr⟩
      | closed =>
        dsimp only
        rw [List.append_nil]
        exact ⟨ih1, fun h => by simp at h, fun h => absurd rfl h.2⟩
      | failed =>
        dsimp only
        rw [List.append_nil]
        exact ⟨ih1, fun _ => ⟨ho, by simp⟩, fun _ => hr⟩
    · have ho : ¬ Spec.Open l n := fun h => hr (ih2.2 h)
      rw [if_neg hr]
      refine ⟨?_, fun h => absurd h hr, fun h => absurd h.1 ho⟩
      rw [ih1]
      cases ha : (l n).1 with
      | conn c =>
        dsimp only
        rw [if_neg (show ¬ ∀ m, m < n → (l m).1 ≠ .closed from ho), List.append_nil]
      | _ => exact (List.append_nil _).symm

/-- C170, violated: while calls fail at once — as they do when no file descriptor is left and a client waits — a line is written for
each round, and no time passes: any number of lines in no time. -/
theorem spin_violated (l : Listener) (k n : Nat) (ho : Spec.Open l k) (hf : ∀ m, k ≤ m → m < k + n → l m = (.failed, 0)) :
    (loop l (k + n)).now = (loop l k).now ∧ (loop l (k + n)).lines = (loop l k).lines ++ List.replicate n (loop l k).now ∧
    (loop l (k + n)).handled = (loop l k).handled := by
  induction n with
  | zero => simp
  | succ n ih =>
    obtain ⟨h1, h2, h3⟩ := ih fun m a b => hf m a (by omega)
    have ho' : Spec.Open l (k + n) := by
      intro m hm
      by_cases e : m < k
      · exact ho m e
      · rw [hf m (by omega) (by omega)]
        simp
    have hr := (goes_on l (k + n)).2.2 ho'
    rw [← Nat.add_assoc, loop, hf (k + n) (by omega) (by omega)]
    unfold round
    rw [if_pos hr]
    dsimp only
    rw [h1, h2, h3]
    refine ⟨rfl, ?_, rfl⟩
    rw [List.replicate_succ', List.append_assoc]
    rfl

/-- C170, violated: after an error that stays — of the socket that QUIC uses — the loop goes on for ever, without any connection. -/
theorem forever_violated (l : Listener) (k : Nat) (ho : Spec.Open l k) (hf : ∀ m, k ≤ m → (l m).1 = .failed) (n : Nat) :
    (loop l (k + n)).running = true ∧ (loop l (k + n)).handled = (loop l k).handled ∧
    (loop l (k + n)).lines.length = (loop l k).lines.length + n := by
  have ho' : ∀ n, Spec.Open l (k + n) := by
    intro n m hm
    by_cases e : m < k
    · exact ho m e
    · rw [hf m (by omega)]
      simp
  refine ⟨(goes_on l (k + n)).2.2 (ho' n), ?_⟩
  induction n with
  | zero => exact ⟨rfl, rfl⟩
  | succ n ih =>
    rw [← Nat.add_assoc, loop]
    unfold round
    rw [if_pos ((goes_on l (k + n)).2.2 (ho' n)), hf (k + n) (by omega)]
    dsimp only
    rw [List.length_append, ih.1, ih.2]
    exact ⟨rfl, rfl⟩

/-- C170. The plain HTTP port waits: it writes a line in 5 ms at most, whatever the listener does. -/
theorem http_waits (l : Listener) (n : Nat) : 5 * (httpLoop l n).lines.length ≤ (httpLoop l n).now := by
  have hd : ∀ d, 5 ≤ nextDelay d ∨ (d ≠ 0 ∧ d < 5) := by
    intro d
    unfold nextDelay
    split
    · exact .inl (Nat.le_refl _)
    · by_cases h : d < 5
      · exact .inr ⟨by assumption, h⟩
      · exact .inl (by omega)
  have inv : ∀ n, 5 * (httpLoop l n).lines.length ≤ (httpLoop l n).now ∧ ((httpLoop l n).delay = 0 ∨ 5 ≤ (httpLoop l n).delay) := by
    intro n
    induction n with
    | zero => exact ⟨Nat.le_refl _, .inl rfl⟩
    | succ n ih =>
      obtain ⟨h1, h2⟩ := ih
      rw [httpLoop]
      unfold httpRound
      by_cases hr : (httpLoop l n).running = true
      · rw [if_pos hr]
        cases ha : (l n).1 with
        | conn c => exact ⟨by dsimp only; omega, .inl rfl⟩
        | closed => exact ⟨by dsimp only; omega, h2⟩
        | failed =>
          have h5 : 5 ≤ nextDelay (httpLoop l n).delay := by
            rcases hd (httpLoop l n).delay with h | ⟨h, h'⟩
            · exact h
            · omega
          refine ⟨?_, .inr h5⟩
          dsimp only
          rw [List.length_append, List.length_singleton]
          omega
      · rw [if_neg hr]
        exact ⟨h1, h2⟩
  exact (inv n).1

/-- C170. The plain HTTP port goes on as well, and ends when its listener is closed and only then; it never waits longer than a
second, and only 5 ms after the first error that follows a connection. -/
theorem http_goes_on (l : Listener) (n : Nat) :
    (httpLoop l n).handled = Spec.accepted l n ∧ ((httpLoop l n).running = true ↔ Spec.Open l n) ∧
    (httpLoop l (n + 1)).now ≤ (httpLoop l n).now + (l n).2 + 1000 ∧
    (∀ c, Spec.Open l n → (l n).1 = .conn c → (l (n + 1)).1 = .failed →
      (httpLoop l (n + 2)).now = (httpLoop l (n + 1)).now + (l (n + 1)).2 + 5) := by
  have hd : ∀ d, nextDelay d ≤ 1000 := by
    intro d
    unfold nextDelay
    split <;> omega
  have main : ∀ n, (httpLoop l n).handled = Spec.accepted l n ∧ ((httpLoop l n).running = true ↔ Spec.Open l n) := by
    intro n
    induction n with
    | zero => exact ⟨rfl, fun _ m hm => absurd hm (by omega), fun _ => rfl⟩
    | succ n ih =>
      obtain ⟨ih1, ih2⟩ := ih
      rw [open_succ, httpLoop, Spec.accepted]
      unfold httpRound
      by_cases hr : (httpLoop l n).running = true
      · have ho := ih2.1 hr
        rw [if_pos hr]
        cases ha : (l n).1 with
        | conn c =>
          dsimp only
          rw [if_pos (show ∀ m, m < n → (l m).1 ≠ .closed from ho), ih1]
          exact ⟨rfl, fun _ => ⟨ho, by simp⟩, fun _ => hr⟩
        | closed =>
          dsimp only
          rw [List.append_nil]
          exact ⟨ih1, fun h => by simp at h, fun h => absurd rfl h.2⟩
        | failed =>
          dsimp only
          rw [List.append_nil]
          exact ⟨ih1, fun _ => ⟨ho, by simp⟩, fun _ => hr⟩
      · have ho : ¬ Spec.Open l n := fun h => hr (ih2.2 h)
        rw [if_neg hr]
        refine ⟨?_, fun h => absurd h hr, fun h => absurd h.1 ho⟩
        rw [ih1]
        cases ha : (l n).1 with
        | conn c =>
          dsimp only
          rw [if_neg (show ¬ ∀ m, m < n → (l m).1 ≠ .closed from ho), List.append_nil]
        | _ => exact (List.append_nil _).symm
  refine ⟨(main n).1, (main n).2, ?_, ?_⟩
  · rw [httpLoop]
    unfold httpRound
    by_cases hr : (httpLoop l n).running = true
    · rw [if_pos hr]
      have := hd (httpLoop l n).delay
      cases ha : (l n).1 <;> dsimp only <;> omega
    · rw [if_neg hr]
      omega
  · intro c ho hc hf
    have hr := (main n).2.2 ho
    have e1 : (httpLoop l (n + 1)).delay = 0 := by
      rw [httpLoop]
      unfold httpRound
      rw [if_pos hr, hc]
    have hr1 : (httpLoop l (n + 1)).running = true :=
      (main (n + 1)).2.2 (open_succ.2 ⟨ho, by rw [hc]; simp⟩)
    rw [show n + 2 = (n + 1) + 1 from rfl, httpLoop]
    unfold httpRound
    rw [if_pos hr1, hf, e1]
    rfl

/-- C170. The wait after the errors that follow a connection doubles each time, up to a second. -/
theorem http_doubles (l : Listener) (n c k : Nat) (ho : Spec.Open l n) (hc : (l n).1 = .conn c)
    (hf : ∀ m, n < m → m ≤ n + k + 1 → (l m).1 = .failed) :
    (httpLoop l (n + k + 2)).now = (httpLoop l (n + k + 1)).now + (l (n + k + 1)).2 + min (5 * 2 ^ k) 1000 := by
  have hop : ∀ j, j ≤ k + 1 → Spec.Open l (n + j + 1) := by
    intro j hj m hm
    by_cases h1 : m < n
    · exact ho m h1
    · by_cases h2 : m = n
      · rw [h2, hc]; simp
      · rw [hf m (by omega) (by omega)]; simp
  have hd : ∀ j, j ≤ k → nextDelay (httpLoop l (n + j + 1)).delay = min (5 * 2 ^ j) 1000 := by
    intro j
    induction j with
    | zero =>
      intro _
      have e : (httpLoop l (n + 0 + 1)).delay = 0 := by
        rw [Nat.add_zero, httpLoop]
        unfold httpRound
        rw [if_pos ((http_goes_on l n).2.1.2 ho), hc]
      rw [e]
      rfl
    | succ j ih =>
      intro hj
      have e : (httpLoop l (n + (j + 1) + 1)).delay = min (5 * 2 ^ j) 1000 := by
        rw [httpLoop]
        unfold httpRound
        rw [if_pos ((http_goes_on l (n + (j + 1))).2.1.2 (hop j (by omega))), hf (n + (j + 1)) (by omega) (by omega)]
        exact ih (by omega)
      rw [e]
      unfold nextDelay
      have := Nat.pow_pos (n := j) (show 0 < 2 by decide)
      rw [if_neg (by omega), Nat.pow_succ]
      omega
  rw [show n + k + 2 = (n + k + 1) + 1 from rfl, httpLoop]
  unfold httpRound
  rw [if_pos ((http_goes_on l (n + k + 1)).2.1.2 (hop k (by omega))), hf (n + k + 1) (by omega) (by omega)]
  dsimp only
  rw [hd k (Nat.le_refl _)]

/-- Two connections, a hundred failures at once, and then another connection. -/
def exListener : Listener := fun n => if n < 2 then (.conn n, 7) else if n < 102 then (.failed, 0) else if n < 103 then (.conn n, 3) else (.closed, 1)

example : (loop exListener 110).handled = [0, 1, 102] ∧ (loop exListener 110).running = false ∧
    (loop exListener 110).lines = List.replicate 100 14 := by decide +kernel

example : (httpLoop exListener 110).handled = [0, 1, 102] ∧ 90000 < (httpLoop exListener 110).now := by decide +kernel

end Verif.Spin
