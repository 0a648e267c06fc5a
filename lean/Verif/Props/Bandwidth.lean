import Verif.Model.Bandwidth
import Verif.Props.Rate
/-
C159: bandwidth limits are kept, and can be used.
-/
namespace Verif.Bandwidth

open Rate (unit waitTime)

/-! ## Specification -/

/-- The sum of something over a list. -/
def Spec.sum {α : Type} (w : α → Nat) : List α → Nat
  | [] => 0
  | a :: l => w a + Spec.sum w l

/-- The bytes that were transferred in an interval, ends included. -/
def Spec.moved (l : List Done) (x y : Nat) : Nat :=
  Spec.sum (fun d => if x ≤ d.time ∧ d.time ≤ y then d.bytes else 0) l

/-- The bytes that were transferred after a time by calls that had been admitted before. -/
def Spec.early (l : List Done) (x : Nat) : Nat :=
  Spec.sum (fun d => if d.call.granted < x ∧ x ≤ d.time then d.bytes else 0) l

/-- The time of an operation. -/
def Spec.time : Op → Nat
  | .call _ _ t => t
  | .transfer _ _ t => t

/-- Operations happen one after the other. -/
def Spec.Ordered (ops : List Op) : Prop := (ops.map Spec.time).Pairwise (· ≤ ·)

/-- The bytes that may be transferred at once (proxy.go:415). -/
def Spec.burst (limit : Nat) : Nat := if limit < 131072 then 131072 else limit

/-- Calls wait only for the limit: whenever one of them waits, there is a time since when the bytes
of all calls, up to the nanosecond, are as many as the limit allows. The list of calls begins with
the last one. -/
def Spec.Prompt (limit : Nat) : List (Nat × Call) → Prop
  | [] => True
  | (t, c) :: l =>
    (t ≤ c.granted ∧ (t < c.granted → ∃ recent rest since, (t, c) :: l = recent ++ rest ∧
      since ≤ t ∧ (∀ e ∈ recent, since ≤ e.1) ∧
      Spec.burst limit * 1000000000 + limit * (c.granted - since) <
        Spec.sum (fun e => e.2.len) recent * 1000000000 + limit)) ∧ Spec.Prompt limit l

/-! ## Lemmas -/

theorem burst_eq (limit : Nat) : (newLimiter limit).burst = Spec.burst limit := by
  unfold Spec.burst
  show max limit (2 ^ 17) = _
  split <;> omega

theorem sum_le {α : Type} {v w : α → Nat} {l : List α} (h : ∀ a ∈ l, v a ≤ w a) :
    Spec.sum v l ≤ Spec.sum w l := by
  induction l with
  | nil => exact Nat.le_refl _
  | cons a l ih =>
    have h1 := h a List.mem_cons_self
    have h2 := ih fun b hb => h b (List.mem_cons_of_mem _ hb)
    show v a + _ ≤ w a + _
    omega

theorem sum_mul {α : Type} (w : α → Nat) (k : Nat) (l : List α) :
    Spec.sum (fun a => k * w a) l = k * Spec.sum w l := by
  induction l with
  | nil => rfl
  | cons a l ih =>
    show k * w a + _ = k * (w a + _)
    rw [ih, Nat.mul_add]

theorem sum_add {α : Type} (v w : α → Nat) (l : List α) :
    Spec.sum (fun a => v a + w a) l = Spec.sum v l + Spec.sum w l := by
  induction l with
  | nil => rfl
  | cons a l ih =>
    show v a + w a + _ = v a + _ + (w a + _)
    rw [ih]; omega

theorem sum_erase {α : Type} (w : α → Nat) (p : α → Bool) (l : List α) (c : α)
    (h : l.find? p = some c) : w c + Spec.sum w (l.eraseP p) = Spec.sum w l := by
  induction l with
  | nil => cases h
  | cons a l ih =>
    by_cases hp : p a = true
    · rw [List.find?_cons_of_pos hp] at h
      cases h
      rw [List.eraseP_cons_of_pos hp]
      rfl
    · rw [List.find?_cons_of_neg hp] at h
      rw [List.eraseP_cons_of_neg hp]
      have := ih h
      show w c + (w a + _) = w a + _
      omega

/-- The bytes of calls admitted at or after a time. -/
def from_ (x : Nat) (l : List (Nat × Call)) : Nat :=
  Spec.sum (fun e => if x ≤ e.2.granted then e.2.len else 0) l

/-- The bytes of calls admitted in an interval. -/
def within (x y : Nat) (l : List (Nat × Call)) : Nat :=
  Spec.sum (fun e => if x ≤ e.2.granted ∧ e.2.granted ≤ y then e.2.len else 0) l

theorem within_le (x y : Nat) (l : List (Nat × Call)) : within x y l ≤ from_ x l := by
  refine sum_le fun e _ => ?_
  by_cases h : x ≤ e.2.granted ∧ e.2.granted ≤ y
  · rw [if_pos h, if_pos h.1]; exact Nat.le_refl _
  · rw [if_neg h]; exact Nat.zero_le _

/-- The bucket against the calls that were admitted. -/
structure BInv (l : Limiter) (log : List (Nat × Call)) : Prop where
  rate : 1 ≤ l.rate
  since : ∀ x, 1 ≤ from_ x log →
    l.tokens + ((l.rate * x : Nat) : Int) + ((unit * from_ x log : Nat) : Int) ≤
      ((l.burst * unit : Nat) : Int) + ((l.rate * l.last : Nat) : Int) + (l.rate : Int)
  bound : ∀ x y, x ≤ y →
    unit * within x y log + l.rate * x ≤ l.burst * unit + l.rate * y + l.rate

/-- The bucket has not been full since a time. -/
def WInv (l : Limiter) (log : List (Nat × Call)) : Prop :=
  ∃ recent rest since, log = recent ++ rest ∧ since ≤ l.last ∧ (∀ e ∈ recent, since ≤ e.1) ∧
    l.tokens + ((unit * Spec.sum (fun e => e.2.len) recent : Nat) : Int) =
      ((l.burst * unit : Nat) : Int) + ((l.rate * (l.last - since) : Nat) : Int)

theorem bucket_step {l : Limiter} {log : List (Nat × Call)} (i : BInv l log) (hw0 : WInv l log)
    (id t n : Nat) (ht : l.last ≤ t) (hn : n ≤ l.burst) :
    ∃ a, waitN l t n = ({ l with tokens := advance l t - ((n * unit : Nat) : Int), last := t }, some a) ∧
      BInv { l with tokens := advance l t - ((n * unit : Nat) : Int), last := t } ((t, ⟨id, n, a⟩) :: log) ∧
      WInv { l with tokens := advance l t - ((n * unit : Nat) : Int), last := t } ((t, ⟨id, n, a⟩) :: log) ∧
      t ≤ a ∧
      (t < a → ∃ recent rest since, (t, (⟨id, n, a⟩ : Call)) :: log = recent ++ rest ∧ since ≤ t ∧
        (∀ e ∈ recent, since ≤ e.1) ∧
        l.burst * unit + l.rate * (a - since) < Spec.sum (fun e => e.2.len) recent * unit + l.rate) := by
  have hadv1 : advance l t ≤ ((l.burst * unit : Nat) : Int) := by unfold advance; omega
  have hadv2 : advance l t ≤ l.tokens + ((l.rate * (t - l.last) : Nat) : Int) := by unfold advance; omega
  have hadv3 : advance l t = ((l.burst * unit : Nat) : Int) ∨
      advance l t = l.tokens + ((l.rate * (t - l.last) : Nat) : Int) := by unfold advance; omega
  have hlt : ((l.rate * (t - l.last) : Nat) : Int) = ((l.rate * t : Nat) : Int) - ((l.rate * l.last : Nat) : Int) := by
    have := Nat.mul_le_mul_left l.rate ht
    rw [Nat.mul_sub]
    omega
  have hwait : waitN l t n = ({ l with tokens := advance l t - ((n * unit : Nat) : Int), last := t },
      some (t + waitTime l.rate (advance l t - ((n * unit : Nat) : Int)))) := by
    have := i.rate
    unfold waitN
    rw [if_neg (by omega), if_neg (by omega)]
  generalize htok : advance l t - ((n * unit : Nat) : Int) = tok at *
  have hw := Rate.wait_enough l.rate i.rate tok
  have hw2 := Rate.wait_exact l.rate i.rate tok
  have hnb : n * unit ≤ l.burst * unit := Nat.mul_le_mul_right unit hn
  have ha : ((l.rate * (t + waitTime l.rate tok) : Nat) : Int) =
      ((l.rate * t : Nat) : Int) + ((l.rate * waitTime l.rate tok : Nat) : Int) := by
    rw [Nat.mul_add]; omega
  have hE : tok + ((l.rate * waitTime l.rate tok : Nat) : Int) ≤
      ((l.burst * unit : Nat) : Int) - ((n * unit : Nat) : Int) + (l.rate : Int) := by
    by_cases h : tok < 0
    · have := hw2 h
      omega
    · have : waitTime l.rate tok = 0 := by unfold waitTime; rw [if_neg h]
      rw [this]
      omega
  have hz : 0 ≤ tok → waitTime l.rate tok = 0 := by
    intro h
    unfold waitTime
    rw [if_neg (by omega)]
  generalize waitTime l.rate tok = w at *
  have hfrom : ∀ x, from_ x ((t, (⟨id, n, t + w⟩ : Call)) :: log) =
      (if x ≤ t + w then n else 0) + from_ x log := fun _ => rfl
  have hsince : ∀ x, 1 ≤ from_ x ((t, (⟨id, n, t + w⟩ : Call)) :: log) →
      tok + ((l.rate * x : Nat) : Int) +
          ((unit * from_ x ((t, (⟨id, n, t + w⟩ : Call)) :: log) : Nat) : Int) ≤
        ((l.burst * unit : Nat) : Int) + ((l.rate * t : Nat) : Int) + (l.rate : Int) := by
    intro x
    rw [hfrom]
    by_cases hx : x ≤ t + w
    · rw [if_pos hx, Nat.mul_add, Nat.mul_comm unit n]
      intro _
      by_cases h1 : 1 ≤ from_ x log
      · have := i.since x h1
        omega
      · have h0 : from_ x log = 0 := by omega
        rw [h0]
        have := Nat.mul_le_mul_left l.rate hx
        omega
    · rw [if_neg hx, Nat.zero_add]
      intro h1
      have := i.since x h1
      omega
  -- the bucket has not been full since `s`
  have hwin : ∃ recent rest since, (t, (⟨id, n, t + w⟩ : Call)) :: log = recent ++ rest ∧ since ≤ t ∧
      (∀ e ∈ recent, since ≤ e.1) ∧
      tok + ((unit * Spec.sum (fun e : Nat × Call => e.2.len) recent : Nat) : Int) =
        ((l.burst * unit : Nat) : Int) + ((l.rate * (t - since) : Nat) : Int) := by
    rcases hadv3 with h3 | h3
    · refine ⟨[(t, ⟨id, n, t + w⟩)], log, t, rfl, Nat.le_refl t, ?_, ?_⟩
      · intro e he
        rw [List.mem_singleton.1 he]; exact Nat.le_refl t
      · rw [Nat.sub_self, Nat.mul_zero]
        show tok + ((unit * (n + 0) : Nat) : Int) = _
        rw [Nat.add_zero, Nat.mul_comm]
        omega
    · obtain ⟨recent, rest, since, e1, e2, e3, e4⟩ := hw0
      refine ⟨(t, ⟨id, n, t + w⟩) :: recent, rest, since, by rw [e1]; rfl, by omega, ?_, ?_⟩
      · intro e he
        rcases List.mem_cons.1 he with he | he
        · rw [he]; show since ≤ t; omega
        · exact e3 e he
      · have : l.rate * (t - since) = l.rate * (t - l.last) + l.rate * (l.last - since) := by
          rw [← Nat.mul_add]; congr 1; omega
        show tok + ((unit * (n + Spec.sum (fun e : Nat × Call => e.2.len) recent) : Nat) : Int) = _
        rw [this, Nat.mul_add, Nat.mul_comm unit n]
        omega
  refine ⟨t + w, hwait, ⟨i.rate, hsince, ?_⟩, hwin, by omega, ?_⟩
  · intro x y hxy
    by_cases hin : x ≤ t + w ∧ t + w ≤ y
    · have hd := within_le x y ((t, (⟨id, n, t + w⟩ : Call)) :: log)
      have hd' := Nat.mul_le_mul_left unit hd
      have hy := Nat.mul_le_mul_left l.rate hin.2
      have hxl := Nat.mul_le_mul_left l.rate hxy
      show unit * within x y ((t, (⟨id, n, t + w⟩ : Call)) :: log) + l.rate * x ≤ l.burst * unit + l.rate * y + l.rate
      by_cases h1 : 1 ≤ from_ x ((t, (⟨id, n, t + w⟩ : Call)) :: log)
      · have hs := hsince x h1
        omega
      · have h0 : from_ x ((t, (⟨id, n, t + w⟩ : Call)) :: log) = 0 := by omega
        rw [h0] at hd'
        omega
    · have : within x y ((t, (⟨id, n, t + w⟩ : Call)) :: log) = within x y log := by
        show (if x ≤ t + w ∧ t + w ≤ y then n else 0) + within x y log = _
        rw [if_neg hin, Nat.zero_add]
      rw [this]
      exact i.bound x y hxy
  · intro hlt'
    obtain ⟨recent, rest, since, e1, e2, e3, e4⟩ := hwin
    refine ⟨recent, rest, since, e1, e2, e3, ?_⟩
    have hneg : tok < 0 := by
      by_cases h : tok < 0
      · exact h
      · have := hz (by omega); omega
    have h2 := hw2 hneg
    have : l.rate * (t + w - since) = l.rate * (t - since) + l.rate * w := by
      rw [← Nat.mul_add]; congr 1; omega
    rw [this, Nat.mul_comm (Spec.sum _ recent) unit]
    omega

/-- What holds in every history. -/
structure Inv (limit : Nat) (s : State) (now : Nat) : Prop where
  rate : s.lim.rate = limit
  last : s.lim.last ≤ now
  some : 1 ≤ limit → s.lim.burst = Spec.burst limit ∧ BInv s.lim s.log ∧ WInv s.lim s.log ∧
    Spec.Prompt limit s.log
  zero : limit = 0 → s.lim.burst + Spec.sum (fun e => e.2.len) s.log = 131072
  link : ∀ w : Call → Nat, Spec.sum (fun d => w d.call) s.done + Spec.sum w s.pending =
    Spec.sum (fun e => w e.2) s.log
  good : ∀ d ∈ s.done, d.call.granted ≤ d.time ∧ d.bytes ≤ d.call.len

theorem inv_init (limit : Nat) : Inv limit (init limit) 0 := by
  refine ⟨rfl, Nat.le_refl 0, ?_, ?_, fun _ => rfl, fun d hd => by cases hd⟩
  · intro h
    refine ⟨burst_eq limit, ⟨h, ?_, ?_⟩, ⟨[], [], 0, rfl, Nat.le_refl 0, fun e he => (nomatch he), ?_⟩, trivial⟩
    · intro x hx
      exact absurd hx (by show ¬ 1 ≤ 0; omega)
    · intro x y hxy
      have := Nat.mul_le_mul_left (newLimiter limit).rate hxy
      show unit * 0 + (newLimiter limit).rate * x ≤ (newLimiter limit).burst * unit +
        (newLimiter limit).rate * y + (newLimiter limit).rate
      omega
    · show _ + ((unit * 0 : Nat) : Int) = _ + (((newLimiter limit).rate * (0 - 0) : Nat) : Int)
      rw [Nat.sub_self, Nat.mul_zero, Nat.mul_zero]
      rfl
  · intro h
    subst h
    rfl

theorem inv_step {limit : Nat} {s : State} {now : Nat} (i : Inv limit s now) (o : Op)
    (ht : now ≤ Spec.time o) : Inv limit (step s o) (Spec.time o) := by
  cases o with
  | call id n t =>
    have ht' : s.lim.last ≤ t := Nat.le_trans i.last ht
    show Inv limit (call s id n t) t
    unfold call
    by_cases hn : s.lim.burst < n
    · have : waitN s.lim t n = (s.lim, none) := by unfold waitN; rw [if_pos hn]
      rw [this]
      exact ⟨i.rate, ht', i.some, i.zero, i.link, i.good⟩
    · by_cases h0 : limit = 0
      · have hr : s.lim.rate = 0 := i.rate.trans h0
        have : waitN s.lim t n = ({ s.lim with burst := s.lim.burst - n }, some t) := by
          unfold waitN; rw [if_neg hn, if_pos hr]
        rw [this]
        refine ⟨i.rate, ht', fun h => absurd h (by omega), ?_, ?_, i.good⟩
        · intro _
          have := i.zero h0
          show s.lim.burst - n + (n + Spec.sum (fun e : Nat × Call => e.2.len) s.log) = _
          omega
        · intro w
          have := i.link w
          show Spec.sum (fun d => w d.call) s.done + (w ⟨id, n, t⟩ + Spec.sum w s.pending) =
            w ⟨id, n, t⟩ + Spec.sum (fun e => w e.2) s.log
          omega
      · obtain ⟨h1, h2, h3, h4⟩ := i.some (by omega)
        obtain ⟨a, e1, e2, e3, e4, e5⟩ := bucket_step h2 h3 id t n ht' (by omega)
        rw [e1]
        refine ⟨i.rate, Nat.le_refl t, fun _ => ⟨h1, e2, e3, ⟨e4, ?_⟩, h4⟩, fun h => absurd h h0, ?_, i.good⟩
        · rw [h1, i.rate] at e5
          exact e5
        · intro w
          have := i.link w
          show Spec.sum (fun d => w d.call) s.done + (w ⟨id, n, a⟩ + Spec.sum w s.pending) =
            w ⟨id, n, a⟩ + Spec.sum (fun e => w e.2) s.log
          omega
  | transfer id b t =>
    have ht' : s.lim.last ≤ t := Nat.le_trans i.last ht
    show Inv limit (step s (.transfer id b t)) t
    unfold step
    dsimp only
    cases hf : s.pending.find? (ready id b t) with
    | none => exact ⟨i.rate, ht', i.some, i.zero, i.link, i.good⟩
    | some c =>
      refine ⟨i.rate, ht', i.some, i.zero, ?_, ?_⟩
      · intro w
        have h1 := i.link w
        have h2 := sum_erase w _ _ c hf
        show (w c + Spec.sum (fun d => w d.call) s.done) +
          Spec.sum w (s.pending.eraseP (ready id b t)) = Spec.sum (fun e => w e.2) s.log
        omega
      · intro d hd
        rcases List.mem_cons.1 hd with hd | hd
        · subst hd
          have := List.find?_some hf
          simp only [ready, Bool.and_eq_true, decide_eq_true_eq] at this
          exact ⟨this.1.2, this.2⟩
        · exact i.good d hd

theorem inv_run {limit : Nat} (ops : List Op) : ∀ {s : State} {now : Nat}, Inv limit s now →
    Spec.Ordered ops → (∀ o ∈ ops, now ≤ Spec.time o) → ∃ now', Inv limit (run s ops) now' := by
  induction ops with
  | nil => intro s now i _ _; exact ⟨now, i⟩
  | cons o os ih =>
    intro s now i ho hn
    unfold Spec.Ordered at ho
    rw [List.map_cons, List.pairwise_cons] at ho
    refine ih (inv_step i o (hn o List.mem_cons_self)) ho.2 ?_
    intro o' ho'
    exact ho.1 _ (List.mem_map.2 ⟨o', ho', rfl⟩)

theorem inv_of (limit : Nat) (ops : List Op) (ho : Spec.Ordered ops) :
    ∃ now, Inv limit (run (init limit) ops) now :=
  inv_run ops (inv_init limit) ho fun _ _ => Nat.zero_le _

theorem within_bound {limit : Nat} {s : State} {now : Nat} (i : Inv limit s now) (x w : Nat) :
    within x (x + w) s.log * 1000000000 ≤ Spec.burst limit * 1000000000 + limit * (w + 1) := by
  by_cases h0 : limit = 0
  · have := i.zero h0
    have h2 : within x (x + w) s.log ≤ Spec.sum (fun e => e.2.len) s.log := by
      refine sum_le fun e _ => ?_
      split <;> omega
    subst h0
    have : Spec.burst 0 = 131072 := rfl
    rw [this]
    omega
  · obtain ⟨h1, h2, -, -⟩ := i.some (by omega)
    have h3 := h2.bound x (x + w) (by omega)
    rw [h1, i.rate, Nat.mul_comm unit, Nat.mul_add limit x w] at h3
    rw [Nat.mul_add]
    show within x (x + w) s.log * unit ≤ Spec.burst limit * unit + _
    omega

theorem moved_le {limit : Nat} {s : State} {now : Nat} (i : Inv limit s now) (x y : Nat) :
    Spec.moved s.done x y ≤ Spec.early s.done x + within x y s.log := by
  have h := i.link fun c => if x ≤ c.granted ∧ c.granted ≤ y then c.len else 0
  have h1 : Spec.moved s.done x y ≤ Spec.sum (fun d =>
      (if d.call.granted < x ∧ x ≤ d.time then d.bytes else 0) +
      (if x ≤ d.call.granted ∧ d.call.granted ≤ y then d.call.len else 0)) s.done := by
    refine sum_le fun d hd => ?_
    have := i.good d hd
    repeat' split
    all_goals omega
  rw [sum_add] at h1
  unfold Spec.early within
  omega

/-! ## Theorems -/

theorem bound_arith {m e c b k : Nat} (u : Nat) (h1 : m ≤ e + c) (h2 : c * u ≤ b * u + k) :
    m * u ≤ e * u + b * u + k := by
  have h3 := Nat.mul_le_mul_right u h1
  rw [Nat.add_mul] at h3
  omega

/-- C159. In any interval of `w` nanoseconds, all connections that share a limit together transfer in
one direction at most the burst (128 kB, or a second's worth) and what the limit allows for that time,
and besides what had been admitted before and waited for data. Missing: the latter is not bounded by
the limit (`pile_violated`). -/
theorem bound_partial (limit : Nat) (ops : List Op) (ho : Spec.Ordered ops) (x w : Nat) :
    Spec.moved (run (init limit) ops).done x (x + w) * 1000000000 ≤
      Spec.early (run (init limit) ops).done x * 1000000000 +
        Spec.burst limit * 1000000000 + limit * (w + 1) := by
  obtain ⟨now, i⟩ := inv_of limit ops ho
  have h1 := moved_le i x (x + w)
  have h2 := within_bound i x w
  exact bound_arith 1000000000 h1 h2

/-- C159. From the beginning, the limit is kept. -/
theorem bound_total (limit : Nat) (ops : List Op) (ho : Spec.Ordered ops) (w : Nat) :
    Spec.moved (run (init limit) ops).done 0 w * 1000000000 ≤
      Spec.burst limit * 1000000000 + limit * (w + 1) := by
  have h := bound_partial limit ops ho 0 w
  have : Spec.early (run (init limit) ops).done 0 = 0 := by
    unfold Spec.early
    induction (run (init limit) ops).done with
    | nil => rfl
    | cons d l ih =>
      show (if d.call.granted < 0 ∧ 0 ≤ d.time then d.bytes else 0) + _ = 0
      rw [if_neg (by omega), ih]
  rw [this, Nat.zero_mul, Nat.zero_add, Nat.zero_add] at h
  exact h

/-- C159. Nobody waits but for the limit: if a call waits, calls since some time have asked for all
that the limit allows. -/
theorem prompt (limit : Nat) (hl : 1 ≤ limit) (ops : List Op) (ho : Spec.Ordered ops) :
    Spec.Prompt limit (run (init limit) ops).log := by
  obtain ⟨now, i⟩ := inv_of limit ops ho
  exact (i.some hl).2.2.2

theorem run_append (s : State) (a b : List Op) : run s (a ++ b) = run (run s a) b := by
  induction a generalizing s with
  | nil => rfl
  | cons o os ih => exact ih (step s o)

theorem calls_pending {limit : Nat} (hl : 1 ≤ limit) (B : Nat) (hB : B ≤ 131072) (n : Nat) :
    ∀ {s : State}, s.lim.rate = limit → s.lim.burst = Spec.burst limit →
      (run s (List.replicate n (.call 0 B 0))).pending.length = s.pending.length + n ∧
      ((∀ c ∈ s.pending, c.len = B) →
        ∀ c ∈ (run s (List.replicate n (.call 0 B 0))).pending, c.len = B) ∧
      (run s (List.replicate n (.call 0 B 0))).done = s.done := by
  induction n with
  | zero => intro s _ _; exact ⟨rfl, fun h => h, rfl⟩
  | succ n ih =>
    intro s h1 h2
    have hb : 131072 ≤ Spec.burst limit := by unfold Spec.burst; split <;> omega
    have hw : ∃ l a, waitN s.lim 0 B = (l, some a) ∧ l.rate = limit ∧ l.burst = Spec.burst limit := by
      unfold waitN
      rw [if_neg (by omega), if_neg (by omega)]
      exact ⟨_, _, rfl, h1, h2⟩
    obtain ⟨l, a, e1, e2, e3⟩ := hw
    have hs : step s (.call 0 B 0) =
        { s with lim := l, pending := ⟨0, B, a⟩ :: s.pending, log := (0, ⟨0, B, a⟩) :: s.log } := by
      show call s 0 B 0 = _
      unfold call
      rw [e1]
    have := @ih (step s (.call 0 B 0)) (by rw [hs]; exact e2) (by rw [hs]; exact e3)
    rw [List.replicate_succ]
    show (run (step s (.call 0 B 0)) _).pending.length = _ ∧
      (_ → ∀ c ∈ (run (step s (.call 0 B 0)) _).pending, _) ∧ (run (step s (.call 0 B 0)) _).done = _
    refine ⟨?_, ?_, ?_⟩
    · rw [this.1, hs]
      show s.pending.length + 1 + n = _
      omega
    · intro h
      refine this.2.1 ?_
      rw [hs]
      intro c hc
      rcases List.mem_cons.1 hc with hc | hc
      · rw [hc]
      · exact h c hc
    · rw [this.2.2, hs]

theorem transfers_done (T : Nat) : ∀ (l : List Call) (s : State), s.pending = l →
    (∀ c ∈ l, c.granted ≤ T) →
    Spec.moved (run s (l.map fun c => .transfer c.id c.len T)).done T T =
      Spec.sum Call.len l + Spec.moved s.done T T
  | [], s, _, _ => by show Spec.moved s.done T T = 0 + _; omega
  | c :: l, s, hp, hg => by
    have hr : ready c.id c.len T c = true := by
      have := hg c List.mem_cons_self
      simp [ready, this]
    have hs : step s (.transfer c.id c.len T) = { s with pending := l, done := ⟨c, T, c.len⟩ :: s.done } := by
      unfold step
      dsimp only
      rw [hp, List.find?_cons_of_pos hr, List.eraseP_cons_of_pos hr]
    have := transfers_done T l (step s (.transfer c.id c.len T)) (by rw [hs])
      fun d hd => hg d (List.mem_cons_of_mem _ hd)
    show Spec.moved (run (step s (.transfer c.id c.len T)) _).done T T = c.len + _ + _
    rw [this, hs]
    show _ + ((if T ≤ T ∧ T ≤ T then c.len else 0) + Spec.moved s.done T T) = _
    rw [if_pos ⟨Nat.le_refl _, Nat.le_refl _⟩]
    omega

theorem sum_const {α : Type} (w : α → Nat) (B : Nat) (l : List α) (h : ∀ a ∈ l, w a = B) :
    Spec.sum w l = l.length * B := by
  induction l with
  | nil => show 0 = 0 * B; omega
  | cons a l ih =>
    show w a + _ = (l.length + 1) * B
    rw [h a List.mem_cons_self, ih fun b hb => h b (List.mem_cons_of_mem _ hb), Nat.add_mul]
    omega

theorem le_sum {α : Type} (w : α → Nat) (l : List α) (a : α) (h : a ∈ l) : w a ≤ Spec.sum w l := by
  induction l with
  | nil => cases h
  | cons b l ih =>
    show w a ≤ w b + _
    rcases List.mem_cons.1 h with h | h
    · subst h; omega
    · have := ih h; omega

/-- C159 fails: whatever the limit, `n` connections that have waited for data for long enough receive
their buffers full at the same instant, and together exceed any bound. -/
theorem pile_violated (limit B n : Nat) (hl : 1 ≤ limit) (hB : B ≤ 131072) :
    ∃ ops T, Spec.Ordered ops ∧ Spec.moved (run (init limit) ops).done T T = n * B := by
  obtain ⟨h1, h2, h3⟩ := calls_pending hl B hB n (s := init limit) rfl (burst_eq limit)
  have h2 := h2 fun c hc => by cases hc
  generalize hq : run (init limit) (List.replicate n (.call 0 B 0)) = s at h1 h2 h3
  refine ⟨List.replicate n (.call 0 B 0) ++
    s.pending.map (fun c => .transfer c.id c.len (Spec.sum Call.granted s.pending)),
    Spec.sum Call.granted s.pending, ?_, ?_⟩
  · unfold Spec.Ordered
    rw [List.map_append, List.pairwise_append]
    refine ⟨?_, ?_, ?_⟩
    · rw [List.map_replicate]
      exact List.pairwise_replicate.2 (.inr (Nat.le_refl _))
    · rw [List.map_map]
      refine List.pairwise_map.2 ?_
      generalize Spec.sum Call.granted s.pending = T
      induction s.pending with
      | nil => exact List.Pairwise.nil
      | cons a l ih => exact List.Pairwise.cons (fun _ _ => Nat.le_refl _) ih
    · intro a ha b _
      rw [List.map_replicate] at ha
      rw [(List.mem_replicate.1 ha).2]
      exact Nat.zero_le _
  · rw [run_append, hq, transfers_done _ s.pending s rfl fun c hc => le_sum Call.granted _ c hc]
    rw [sum_const Call.len B _ h2, h1, h3]
    show (0 + n) * B + 0 = _
    rw [Nat.zero_add, Nat.add_zero]

/-- The least number of bytes that a buffer has, the greatest that is found when it is read. -/
def Spec.Sizes (B m : Nat) : Op → Prop
  | .call _ len _ => B ≤ len
  | .transfer _ b _ => b ≤ m

theorem sizes_run (B m : Nat) (ops : List Op) : ∀ (s : State), (∀ o ∈ ops, Spec.Sizes B m o) →
    (∀ c ∈ s.pending, B ≤ c.len) → (∀ d ∈ s.done, B ≤ d.call.len ∧ d.bytes ≤ m) →
    ∀ d ∈ (run s ops).done, B ≤ d.call.len ∧ d.bytes ≤ m := by
  induction ops with
  | nil => intro s _ _ h; exact h
  | cons o os ih =>
    intro s ho hp hd
    refine ih (step s o) (fun o' h => ho o' (List.mem_cons_of_mem _ h)) ?_ ?_
    · cases o with
      | call id n t =>
        have h1 : B ≤ n := ho _ List.mem_cons_self
        show ∀ c ∈ (call s id n t).pending, _
        unfold call
        split
        · exact hp
        · intro c hc
          rcases List.mem_cons.1 hc with hc | hc
          · rw [hc]; exact h1
          · exact hp c hc
      | transfer id b t =>
        unfold step
        dsimp only
        split
        · exact hp
        · intro c hc
          exact hp c (List.mem_of_mem_eraseP hc)
    · cases o with
      | call id n t =>
        show ∀ d ∈ (call s id n t).done, _
        unfold call
        split <;> exact hd
      | transfer id b t =>
        have h1 : b ≤ m := ho _ List.mem_cons_self
        unfold step
        dsimp only
        split
        · exact hd
        · rename_i c hf
          intro d hdm
          rcases List.mem_cons.1 hdm with hdm | hdm
          · rw [hdm]; exact ⟨hp c (List.mem_of_find?_eq_some hf), h1⟩
          · exact hd d hdm

/-- C159 fails: the limit cannot be used by those who send little at a time. Reading takes the length of
the buffer from the limit, not what is read: with buffers of `B` bytes and at most `m` bytes read at a
time, all connections together get no more than the fraction `m / B` of the limit. -/
theorem small_reads_violated (limit B m : Nat) (ops : List Op) (ho : Spec.Ordered ops)
    (hs : ∀ o ∈ ops, Spec.Sizes B m o) (w : Nat) :
    B * Spec.moved (run (init limit) ops).done 0 w * 1000000000 ≤
      m * (Spec.burst limit * 1000000000 + limit * (w + 1)) := by
  obtain ⟨now, i⟩ := inv_of limit ops ho
  have h1 := sizes_run B m ops (init limit) hs (fun c hc => by cases hc) (fun d hd => by cases hd)
  have h2 := within_bound i 0 w
  rw [Nat.zero_add] at h2
  have h3 := i.link fun c => if 0 ≤ c.granted ∧ c.granted ≤ w then c.len else 0
  have h4 : B * Spec.moved (run (init limit) ops).done 0 w ≤ m * within 0 w (run (init limit) ops).log := by
    have h5 : Spec.sum (fun d => B * if 0 ≤ d.time ∧ d.time ≤ w then d.bytes else 0)
        (run (init limit) ops).done ≤ Spec.sum (fun d =>
          m * if 0 ≤ d.call.granted ∧ d.call.granted ≤ w then d.call.len else 0)
        (run (init limit) ops).done := by
      refine sum_le fun d hd => ?_
      obtain ⟨e1, e2⟩ := h1 d hd
      have e3 := (i.good d hd).1
      by_cases ht : d.time ≤ w
      · rw [if_pos ⟨Nat.zero_le _, ht⟩, if_pos ⟨Nat.zero_le _, Nat.le_trans e3 ht⟩, Nat.mul_comm m]
        exact Nat.mul_le_mul e1 e2
      · rw [if_neg (fun h => ht h.2), Nat.mul_zero]
        exact Nat.zero_le _
    rw [sum_mul, sum_mul] at h5
    refine Nat.le_trans h5 (Nat.mul_le_mul_left m ?_)
    unfold within
    omega
  calc B * Spec.moved (run (init limit) ops).done 0 w * 1000000000
      ≤ m * within 0 w (run (init limit) ops).log * 1000000000 := Nat.mul_le_mul_right _ h4
    _ = m * (within 0 w (run (init limit) ops).log * 1000000000) := Nat.mul_assoc ..
    _ ≤ _ := Nat.mul_le_mul_left m h2

/-- C159 fails: a direction whose limit is left out, or 0, comes to an end: all connections together
transfer no more than 128 kB, as long as the proxy runs; and when that is used up every call fails. -/
theorem zero_violated (ops : List Op) (ho : Spec.Ordered ops) :
    (∀ w, Spec.moved (run (init 0) ops).done 0 w ≤ 131072) ∧
    (131072 ≤ Spec.sum (fun e => e.2.len) (run (init 0) ops).log → ∀ id len t, 1 ≤ len →
      step (run (init 0) ops) (.call id len t) =
        { run (init 0) ops with failed := id :: (run (init 0) ops).failed }) := by
  obtain ⟨now, i⟩ := inv_of 0 ops ho
  refine ⟨fun w => ?_, fun h id len t hn => ?_⟩
  · have h := bound_total 0 ops ho w
    have : Spec.burst 0 = 131072 := rfl
    rw [this] at h
    omega
  · have hz := i.zero rfl
    have : waitN (run (init 0) ops).lim t len = ((run (init 0) ops).lim, none) := by
      unfold waitN; rw [if_pos (by omega)]
    show call _ id len t = _
    unfold call
    rw [this]

/-- Calls with more than the burst fail, and all others are admitted. -/
theorem call_fails_iff (limit : Nat) (hl : 1 ≤ limit) (ops : List Op) (ho : Spec.Ordered ops)
    (id len t : Nat) :
    (step (run (init limit) ops) (.call id len t)).failed = id :: (run (init limit) ops).failed ↔
      Spec.burst limit < len := by
  obtain ⟨now, i⟩ := inv_of limit ops ho
  obtain ⟨h1, -, -, -⟩ := i.some hl
  show (call _ id len t).failed = _ ↔ _
  unfold call
  constructor
  · intro h
    rcases Nat.lt_or_ge (Spec.burst limit) len with h2 | h2
    · exact h2
    · have : ∃ l a, waitN (run (init limit) ops).lim t len = (l, some a) := by
        unfold waitN
        rw [if_neg (by omega), if_neg (by rw [i.rate]; omega)]
        exact ⟨_, _, rfl⟩
      obtain ⟨l, a, e⟩ := this
      rw [e] at h
      have := congrArg List.length h
      simp at this
  · intro h
    have : waitN (run (init limit) ops).lim t len = ((run (init limit) ops).lim, none) := by
      unfold waitN; rw [if_pos (by omega)]
    rw [this]

/-- Non-vacuity of `pile_violated`: 100 connections with buffers of 32 kB receive 3.2 MB at once with a
limit of 1 kB per second. -/
example : ∃ ops T, Spec.Ordered ops ∧ Spec.moved (run (init 1000) ops).done T T = 100 * 32768 :=
  pile_violated 1000 32768 100 (by decide) (by decide)

/-- Non-vacuity of `small_reads_violated`: keystrokes that are read with buffers of 32 kB. -/
example : ∀ o ∈ [Op.call 1 32768 0, .transfer 1 1 5, .call 1 32768 5], Spec.Sizes 32768 1 o := by
  simp [Spec.Sizes]

/-- Non-vacuity of `zero_violated`: the limit is used up. -/
example : let ops := [Op.call 1 131072 0, .transfer 1 131072 5]
    Spec.Ordered ops ∧ 131072 ≤ Spec.sum (fun e => e.2.len) (run (init 0) ops).log ∧
      Spec.moved (run (init 0) ops).done 0 5 = 131072 := by
  refine ⟨by simp [Spec.Ordered, Spec.time], ?_, ?_⟩ <;> decide +kernel

/-- Non-vacuity: at 100 kB per second, the second call for 100 kB waits, and both transfer. -/
example : let ops := [.call 1 100000 0, .transfer 1 100000 0, .call 2 100000 500000000, .transfer 2 100000 700000000]
    Spec.Ordered ops ∧ Spec.moved (run (init 100000) ops).done 0 1000000000 = 200000 ∧
      (run (init 100000) ops).done.map (·.call.granted) = [689280000, 0] := by
  refine ⟨by simp [Spec.Ordered, Spec.time], ?_, ?_⟩ <;> decide +kernel

end Verif.Bandwidth
