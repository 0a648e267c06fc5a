import Verif.Model.Numbers
/-
C160: the numbers that are accepted leave a proxy that serves somebody.
-/
namespace Verif.Numbers

/-! ## Specification -/

/-- The number of connections as documented: what is written, or else half the number of files that may be open, less
one hundred. -/
def Spec.MaxOpen (limit : Option Nat) (n : Numbers) (m : Int) : Prop :=
  (n.maxOpen ≠ 0 ∧ m = n.maxOpen) ∨ (n.maxOpen = 0 ∧ ∃ l, limit = some l ∧ m = ((l / 2 : Nat) : Int) - 100)

/-- The timeout that is written for a path override, or for the backend. -/
def Spec.written (n : Numbers) : Option Nat → Int
  | none => n.timeout
  | some i => if h : i < n.overrides.length then n.overrides[i] else n.timeout

/-- The timeout in effect: what is written, or else 30 seconds. -/
def Spec.Timeout (n : Numbers) (ov : Option Nat) (t : Int) : Prop :=
  (Spec.written n ov ≠ 0 ∧ t = Spec.written n ov) ∨ (Spec.written n ov = 0 ∧ t = 30 * Defaults.second)

/-- C160, in full: every accepted configuration forwards at least some request, on each path. -/
def Spec.Works : Prop :=
  ∀ (second : Nat) (limit : Option Nat) (n n' : Numbers), 0 < second → check limit n = some n' →
    ∀ ov, ∃ v : Visit, v.override = ov ∧ v.login ≤ v.now ∧ visit second n' v = .forwarded

/-! ## What is in effect -/

theorem check_maxOpen {limit : Option Nat} {n n' : Numbers} (h : check limit n = some n') :
    Spec.MaxOpen limit n n'.maxOpen ∧ n'.rate = Defaults.rateOf n.rate ∧ n'.forceReAuth = n.forceReAuth ∧
      n'.timeout = Defaults.timeoutOf n.timeout ∧ n'.overrides = n.overrides.map Defaults.timeoutOf := by
  unfold check at h
  cases hm : maxOpenOf limit n.maxOpen with
  | none => rw [hm] at h; cases h
  | some m =>
    rw [hm] at h
    cases h
    refine ⟨?_, rfl, rfl, rfl, rfl⟩
    unfold maxOpenOf at hm
    split at hm
    · rename_i h0
      cases hm
      exact .inl ⟨h0, rfl⟩
    · rename_i h0
      cases hl : limit with
      | none => rw [hl] at hm; cases hm
      | some l =>
        rw [hl] at hm
        cases hm
        exact .inr ⟨Classical.not_not.1 h0, l, rfl, rfl⟩

theorem check_timeout {limit : Option Nat} {n n' : Numbers} (h : check limit n = some n') (ov : Option Nat) :
    timeoutFor n' ov = Defaults.timeoutOf (Spec.written n ov) := by
  obtain ⟨-, -, -, ht, ho⟩ := check_maxOpen h
  unfold timeoutFor Spec.written
  cases ov with
  | none => exact ht
  | some i =>
    rw [Option.bind_some, ho, List.getElem?_map]
    by_cases hi : i < n.overrides.length
    · simp [hi]
    · simp [hi, ht]

/-- `timeoutOf` without the number of nanoseconds. -/
theorem timeoutOf_pos (t : Int) : 0 < Defaults.timeoutOf t ↔ 0 ≤ t := by
  unfold Defaults.timeoutOf
  have : 0 < 30 * Defaults.second := by decide
  split <;> omega

theorem timeout_effect {limit : Option Nat} {n n' : Numbers} (h : check limit n = some n') (ov : Option Nat) (t : Int) :
    Spec.Timeout n ov t ↔ timeoutFor n' ov = t := by
  rw [check_timeout h ov]
  unfold Spec.Timeout Defaults.timeoutOf
  split
  · rename_i h0
    constructor
    · rintro (⟨h1, -⟩ | ⟨-, h2⟩)
      · exact absurd h0 h1
      · exact h2.symm
    · exact fun h2 => .inr ⟨h0, h2.symm⟩
  · rename_i h0
    constructor
    · rintro (⟨-, h2⟩ | ⟨h1, -⟩)
      · exact h2.symm
      · exact absurd h1 h0
    · exact fun h2 => .inl ⟨h0, h2.symm⟩

theorem forwarded_iff (second : Nat) (n : Numbers) (v : Visit) :
    visit second n v = .forwarded ↔
      ((v.opn + 1 : Nat) : Int) < n.maxOpen ∧ 1 ≤ n.rate ∧
      (n.forceReAuth = 0 ∨ (v.now : Int) - (issuedAt second v.login : Int) ≤ n.forceReAuth) ∧
      (v.latency : Int) < timeoutFor n v.override := by
  unfold visit admitted waits reauth dials
  by_cases h1 : ((v.opn + 1 : Nat) : Int) < n.maxOpen
  · rw [if_neg (by simp only [decide_eq_false_iff_not]; exact fun h => h h1)]
    by_cases h2 : 1 ≤ n.rate
    · rw [if_neg (by simp [h2])]
      by_cases h3 : n.forceReAuth = 0 ∨ (v.now : Int) - (issuedAt second v.login : Int) ≤ n.forceReAuth
      · rw [if_neg]
        · by_cases h4 : (v.latency : Int) < timeoutFor n v.override
          · rw [if_neg (by simp [h4])]
            exact ⟨fun _ => ⟨h1, h2, h3, h4⟩, fun _ => rfl⟩
          · rw [if_pos (by simp [h4])]
            exact ⟨fun h => (nomatch h), fun h => absurd h.2.2.2 h4⟩
        · simp only [Bool.and_eq_true, decide_eq_true_eq]
          rintro ⟨ha, hb⟩
          rcases h3 with h | h
          · exact ha h
          · omega
      · rw [if_pos]
        · exact ⟨fun h => (nomatch h), fun h => absurd h.2.2.1 h3⟩
        · simp only [Bool.and_eq_true, decide_eq_true_eq]
          refine ⟨fun h => h3 (.inl h), ?_⟩
          have := fun h => h3 (.inr h)
          omega
    · rw [if_pos (by simp [h2])]
      exact ⟨fun h => (nomatch h), fun h => absurd h.2.1 h2⟩
  · rw [if_pos (by simp only [decide_eq_false_iff_not]; exact h1)]
    exact ⟨fun h => (nomatch h), fun h => absurd h.1 h1⟩

/-- The time of a login is not after it, and less than a second before it. -/
theorem issuedAt_le (second login : Nat) (hs : 0 < second) :
    issuedAt second login ≤ login ∧ login < issuedAt second login + second := by
  unfold issuedAt
  have := Nat.div_add_mod login second
  have hm := Nat.mod_lt login hs
  rw [Nat.mul_comm] at this
  omega

/-! ## C160 -/

/-- C160 (partial). Missing: numbers that are negative, a `maxOpen` of less than 2, and a limit of open files of less
than 204. With all others, every request is forwarded that finds room, whose user has logged in no longer ago than
`forceReAuth` allows, less one second, and whose server can be reached within the timeout. -/
theorem works_partial (second : Nat) (hs : 0 < second) (limit : Option Nat) (n n' : Numbers)
    (h : check limit n = some n') (hr : 0 ≤ n.rate) (v : Visit) (m t : Int)
    (hm : Spec.MaxOpen limit n m) (hopen : ((v.opn + 1 : Nat) : Int) < m)
    (ht : Spec.Timeout n v.override t) (hlat : (v.latency : Int) < t)
    (hf : n.forceReAuth = 0 ∨ ((v.now : Int) - (v.login : Int)) + (second : Int) ≤ n.forceReAuth) :
    visit second n' v = .forwarded := by
  obtain ⟨hmax, hrate, hforce, -, -⟩ := check_maxOpen h
  have hmm : n'.maxOpen = m := by
    rcases hm with ⟨h0, rfl⟩ | ⟨h0, l, hl, rfl⟩
    · rcases hmax with ⟨-, h2⟩ | ⟨h1, -⟩
      · exact h2
      · exact absurd h1 h0
    · rcases hmax with ⟨h1, -⟩ | ⟨-, l', hl', h2⟩
      · exact absurd h0 h1
      · rw [hl] at hl'; cases hl'; exact h2
  rw [forwarded_iff, hmm, (timeout_effect h v.override t).1 ht, hforce]
  refine ⟨hopen, ?_, ?_, hlat⟩
  · rw [hrate]
    unfold Defaults.rateOf
    split <;> omega
  · rcases hf with hf | hf
    · exact .inl hf
    · have := (issuedAt_le second v.login hs).2
      exact .inr (by omega)

/-- C160. Exactly which accepted configurations forward anything on a path. -/
theorem works_iff (second : Nat) (hs : 0 < second) (limit : Option Nat) (n n' : Numbers) (h : check limit n = some n')
    (ov : Option Nat) :
    (∃ v : Visit, v.override = ov ∧ v.login ≤ v.now ∧ visit second n' v = .forwarded) ↔
      (2 ≤ n.maxOpen ∨ (n.maxOpen = 0 ∧ ∃ l, limit = some l ∧ 204 ≤ l)) ∧ 0 ≤ n.rate ∧ 0 ≤ n.forceReAuth ∧
        0 ≤ Spec.written n ov := by
  obtain ⟨hmax, hrate, hforce, -, -⟩ := check_maxOpen h
  have ht := check_timeout h ov
  have htp := timeoutOf_pos (Spec.written n ov)
  constructor
  · rintro ⟨v, rfl, hle, hv⟩
    obtain ⟨h1, h2, h3, h4⟩ := (forwarded_iff second n' v).1 hv
    refine ⟨?_, ?_, ?_, ?_⟩
    · rcases hmax with ⟨h0, he⟩ | ⟨h0, l, hl, he⟩
      · exact .inl (by omega)
      · exact .inr ⟨h0, l, hl, by omega⟩
    · rw [hrate] at h2
      unfold Defaults.rateOf at h2
      split at h2 <;> omega
    · rw [hforce] at h3
      rcases h3 with h3 | h3
      · omega
      · have := (issuedAt_le second v.login hs).1
        omega
    · rw [ht] at h4
      exact htp.1 (by omega)
  · rintro ⟨h1, h2, h3, h4⟩
    refine ⟨{ login := 0, now := 0, override := ov, latency := 0 }, rfl, Nat.le_refl _, ?_⟩
    rw [forwarded_iff]
    dsimp only
    refine ⟨?_, ?_, ?_, ?_⟩
    · rcases hmax with ⟨h0, he⟩ | ⟨h0, l, hl, he⟩
      · rcases h1 with h1 | ⟨h1, -⟩
        · omega
        · exact absurd h1 h0
      · rcases h1 with h1 | ⟨-, l', hl', h1⟩
        · omega
        · rw [hl] at hl'; cases hl'; omega
    · rw [hrate]
      unfold Defaults.rateOf
      split <;> omega
    · right
      rw [hforce]
      have := (issuedAt_le second 0 hs).1
      omega
    · rw [ht]
      exact htp.2 h4

/-- C160. No number is a reason for `Check` to refuse a configuration. -/
theorem accepted (limit : Option Nat) (n : Numbers) : (check limit n).isSome = true ↔ n.maxOpen ≠ 0 ∨ limit.isSome := by
  unfold check maxOpenOf
  by_cases h : n.maxOpen = 0
  · cases limit <;> simp [h]
  · simp [h]

/-- C160 fails: with a `maxOpen` below 2, or none where fewer than 204 files may be open, every connection is refused. -/
theorem open_violated (second : Nat) (limit : Option Nat) (n n' : Numbers) (h : check limit n = some n')
    (hm : (n.maxOpen ≠ 0 ∧ n.maxOpen < 2) ∨ (n.maxOpen = 0 ∧ ∀ l, limit = some l → l < 204)) (v : Visit) :
    visit second n' v = .refused := by
  obtain ⟨hmax, -, -, -, -⟩ := check_maxOpen h
  unfold visit admitted
  rw [if_pos]
  rw [decide_eq_false_iff_not]
  rcases hmax with ⟨h0, he⟩ | ⟨h0, l, hl, he⟩
  · rcases hm with ⟨-, h1⟩ | ⟨h1, -⟩
    · omega
    · exact absurd h1 h0
  · rcases hm with ⟨h1, -⟩ | ⟨-, h1⟩
    · exact absurd h0 h1
    · have := h1 l hl
      omega

/-- C160 fails: with a `maxOpen` of `m` no more than `m - 1` connections are ever open, as the one that asks is counted
before it is compared. -/
theorem last_violated (second : Nat) (limit : Option Nat) (n n' : Numbers) (h : check limit n = some n')
    (m : Int) (hm : Spec.MaxOpen limit n m) (v : Visit) (hv : ((v.opn + 1 : Nat) : Int) = m) :
    visit second n' v = .refused := by
  obtain ⟨hmax, -, -, -, -⟩ := check_maxOpen h
  unfold visit admitted
  rw [if_pos]
  rw [decide_eq_false_iff_not]
  rcases hmax with ⟨h0, he⟩ | ⟨h0, l, hl, he⟩
  · rcases hm with ⟨-, h1⟩ | ⟨h1, -⟩
    · omega
    · exact absurd h1 h0
  · rcases hm with ⟨h1, -⟩ | ⟨-, l', hl', h1⟩
    · exact absurd h0 h1
    · rw [hl] at hl'; cases hl'; omega

/-- C160 fails: with a negative rate limit every connection that is admitted fails in the limiter. -/
theorem rate_violated (second : Nat) (limit : Option Nat) (n n' : Numbers) (h : check limit n = some n')
    (hr : n.rate < 0) (v : Visit) : visit second n' v = .refused ∨ visit second n' v = .limiterError := by
  obtain ⟨-, hrate, -, -, -⟩ := check_maxOpen h
  unfold visit
  split
  · exact .inl rfl
  · right
    rw [if_pos]
    unfold waits
    rw [hrate, decide_eq_false_iff_not]
    unfold Defaults.rateOf
    split <;> omega

/-- C160 fails: with a negative timeout no server is ever reached on this path, however near it is. -/
theorem timeout_violated (second : Nat) (limit : Option Nat) (n n' : Numbers) (h : check limit n = some n')
    (v : Visit) (ht : Spec.written n v.override < 0) : visit second n' v ≠ .forwarded := by
  intro hv
  have := ((forwarded_iff second n' v).1 hv).2.2.2
  rw [check_timeout h] at this
  have := (timeoutOf_pos (Spec.written n v.override)).1 (by omega)
  omega

theorem visit_again {second : Nat} {n : Numbers} {v : Visit} (h1 : ((v.opn + 1 : Nat) : Int) < n.maxOpen)
    (h2 : 1 ≤ n.rate) (h3 : n.forceReAuth ≠ 0)
    (h4 : n.forceReAuth < (v.now : Int) - (issuedAt second v.login : Int)) : visit second n v = .loginAgain := by
  unfold visit admitted waits reauth
  rw [if_neg (by simp only [decide_eq_false_iff_not]; exact fun h => h h1), if_neg (by simp [h2]), if_pos (by simp [h3, h4])]

/-- C160 fails: with a negative `forceReAuth` a user who logs in whenever they are asked to does so for ever. -/
theorem reauth_violated (second : Nat) (hs : 0 < second) (limit : Option Nat) (n n' : Numbers)
    (h : check limit n = some n') (hf : n.forceReAuth < 0) (hr : 0 ≤ n.rate) (v : Visit)
    (hopen : ((v.opn + 1 : Nat) : Int) < n'.maxOpen) (ds : List Nat) : logins second n' v ds = none := by
  obtain ⟨-, hrate, hforce, -, -⟩ := check_maxOpen h
  induction ds generalizing v with
  | nil => rfl
  | cons d ds ih =>
    unfold logins
    rw [visit_again]
    · exact ih _ hopen
    · exact hopen
    · rw [hrate]
      unfold Defaults.rateOf
      split <;> omega
    · omega
    · dsimp only
      have := (issuedAt_le second v.now hs).1
      omega

/-- C160 fails: with a positive `forceReAuth` of less than a second, users who log in late in a second are asked to log
in again at once, because the time of the login is rounded down. -/
theorem round_violated (second : Nat) (limit : Option Nat) (n n' : Numbers)
    (h : check limit n = some n') (hf : 0 < n.forceReAuth) (hr : 0 ≤ n.rate) (v : Visit)
    (hopen : ((v.opn + 1 : Nat) : Int) < n'.maxOpen) (hle : v.login ≤ v.now)
    (hlate : n.forceReAuth < ((v.login % second : Nat) : Int)) : visit second n' v = .loginAgain := by
  obtain ⟨-, hrate, hforce, -, -⟩ := check_maxOpen h
  apply visit_again hopen
  · rw [hrate]
    unfold Defaults.rateOf
    split <;> omega
  · omega
  · unfold issuedAt
    have := Nat.div_add_mod v.login second
    rw [Nat.mul_comm] at this
    omega

/-- C160. A user who logs in when asked to, and comes back within `d`, has to do so once, if `forceReAuth` is not less
than `d` and one second. -/
theorem once (second : Nat) (hs : 0 < second) (n : Numbers) (v : Visit) (d : Nat) (ds : List Nat)
    (hf : n.forceReAuth = 0 ∨ ((d : Int) + (second : Int)) ≤ n.forceReAuth) :
    ∃ o, logins second n v (d :: ds) = some o ∧ o ≠ .loginAgain := by
  have hne : visit second n { v with login := v.now, now := v.now + d } ≠ .loginAgain := by
    unfold visit
    split
    · exact fun h => (nomatch h)
    split
    · exact fun h => (nomatch h)
    split
    · rename_i hre
      unfold reauth at hre
      simp only [Bool.and_eq_true, decide_eq_true_eq] at hre
      have := (issuedAt_le second v.now hs).2
      rcases hf with hf | hf
      · exact absurd hf hre.1
      · omega
    split
    · exact fun h => (nomatch h)
    · exact fun h => (nomatch h)
  refine ⟨visit second n { v with login := v.now, now := v.now + d }, ?_, hne⟩
  unfold logins
  cases hv : visit second n { v with login := v.now, now := v.now + d } with
  | loginAgain => exact absurd hv hne
  | refused => rfl
  | limiterError => rfl
  | dialError => rfl
  | forwarded => rfl

/-- Hence the full claim does not hold. -/
theorem works_violated : ¬ Spec.Works := by
  intro h
  obtain ⟨v, -, -, hv⟩ := h 1 none { maxOpen := 1 } _ (by decide) rfl none
  rw [open_violated 1 none { maxOpen := 1 } _ rfl (.inl (by decide)) v] at hv
  cases hv

/-! ## Examples -/

/-- Nothing written, 1024 files, and a login every hour. -/
example : (check (some 1024) { forceReAuth := 3600 }).map (visit 1 · { opn := 410, login := 10, now := 3600, latency := 29 }) =
      some .forwarded ∧
    (check (some 1024) { forceReAuth := 3600 }).map (visit 1 · { opn := 411, login := 10, now := 3600, latency := 29 }) =
      some .refused := by decide +kernel

/-- With 203 files nobody is served. -/
example (v : Visit) : (check (some 203) {}).map (visit 1 · v) = some .refused := by
  cases h : check (some 203) {} with
  | none => cases h
  | some n' => exact congrArg some (open_violated 1 _ _ _ h (.inr ⟨rfl, fun l hl => by cases hl; decide⟩) v)

/-- Half a second, and a login in the second half. -/
example : (check none { maxOpen := 100, forceReAuth := 500 }).map (visit 1000 · { login := 7600, now := 7600, latency := 1 }) =
    some .loginAgain := by decide +kernel

example : (check none { maxOpen := 100, forceReAuth := -1 }).map
    (logins 1000 · { login := 0, now := 7600, latency := 1 } [0, 10, 5000]) = some none := by decide +kernel

example : (check none { maxOpen := 100, rate := -1 }).map (visit 1 · { login := 0, now := 0, latency := 1 }) =
    some .limiterError ∧
  (check none { maxOpen := 100, overrides := [-1] }).map
    (visit 1 · { login := 0, now := 0, latency := 0, override := some 0 }) = some .dialError := by decide +kernel

end Verif.Numbers
