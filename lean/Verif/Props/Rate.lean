import Verif.Model.Rate
/-
C136: the forward rate limit.
-/
namespace Verif.Rate

/-! ## Specification -/

/-- How many of these times are in an interval, ends included. -/
def Spec.during (l : List Nat) (x y : Nat) : Nat := (l.filter fun a => x ≤ a ∧ a ≤ y).length

/-- The time of an operation. -/
def Spec.time : Op → Nat
  | .relay t => t
  | .connect _ _ t => t
  | .request _ t => t
  | .setFlag _ t => t

/-- Operations happen one after the other. -/
def Spec.Ordered (ops : List Op) : Prop := (ops.map Spec.time).Pairwise (· ≤ ·)

/-- The connection is made with HTTP/3, not with HTTP/1 or HTTP/2 over TLS. -/
def Spec.http3 : Op → Prop
  | .connect _ quic _ => quic = true
  | _ => True

/-- No request begins on a connection while another one that has found the flag unset has not set
it. -/
def Spec.OneByOne (s : State) : List Op → Prop
  | [] => True
  | o :: os =>
    (match o with
      | .request id _ => ∀ k ∈ s.conns, k.id = id → k.seen = 0
      | _ => True) ∧ Spec.OneByOne (step s o) os

/-! ## The bucket -/

theorem wait_enough (r : Nat) (hr : 1 ≤ r) (tok : Int) : 0 ≤ tok + ((r * waitTime r tok : Nat) : Int) := by
  unfold waitTime
  split
  · rename_i h
    have h1 := Nat.div_add_mod ((-tok).toNat + r - 1) r
    have h2 := Nat.mod_lt ((-tok).toNat + r - 1) (y := r) (by omega)
    omega
  · omega

theorem wait_exact (r : Nat) (hr : 1 ≤ r) (tok : Int) (h : tok < 0) :
    tok + ((r * waitTime r tok : Nat) : Int) ≤ (r : Int) - 1 := by
  unfold waitTime
  rw [if_pos h]
  have h1 := Nat.div_add_mod ((-tok).toNat + r - 1) r
  omega

/-- The state of the bucket against the times when waiting ended. -/
structure BInv (l : Limiter) (acts : List Nat) : Prop where
  rate : 1 ≤ l.rate
  since : ∀ x, 1 ≤ (acts.filter fun a => x ≤ a).length →
    l.tokens + ((l.rate * x : Nat) : Int) + ((unit * (acts.filter fun a => x ≤ a).length : Nat) : Int) ≤
      ((l.rate * unit : Nat) : Int) + ((l.rate * l.last : Nat) : Int)
  bound : ∀ x y, x ≤ y →
    unit * Spec.during acts x y + l.rate * x ≤ l.rate * unit + l.rate * y

theorem during_le (acts : List Nat) (x y : Nat) :
    Spec.during acts x y ≤ (acts.filter fun a => x ≤ a).length := by
  unfold Spec.during
  have : acts.filter (fun a => decide (x ≤ a ∧ a ≤ y)) =
      (acts.filter fun a => decide (x ≤ a)).filter fun a => decide (a ≤ y) := by
    rw [List.filter_filter]
    apply List.filter_congr
    intro a _
    by_cases h1 : x ≤ a <;> by_cases h2 : a ≤ y <;> simp [h1, h2]
  rw [this]
  exact List.length_filter_le ..

theorem binv_reserve {l : Limiter} {acts : List Nat} (i : BInv l acts) (t : Nat) (ht : l.last ≤ t) :
    BInv (reserve l t).1 ((reserve l t).2 :: acts) ∧ (reserve l t).1.last = t ∧
    (reserve l t).1.rate = l.rate ∧ t ≤ (reserve l t).2 := by
  unfold reserve
  dsimp only
  have hadv1 : advance l t ≤ ((l.rate * unit : Nat) : Int) := by unfold advance; omega
  have hadv2 : advance l t ≤ l.tokens + ((l.rate * (t - l.last) : Nat) : Int) := by unfold advance; omega
  have hlt : ((l.rate * (t - l.last) : Nat) : Int) = ((l.rate * t : Nat) : Int) - ((l.rate * l.last : Nat) : Int) := by
    have := Nat.mul_le_mul_left l.rate ht
    rw [Nat.mul_sub]
    omega
  generalize htok : advance l t - (unit : Int) = tok
  have hw := wait_enough l.rate i.rate tok
  have hw2 := wait_exact l.rate i.rate tok
  have hrate : l.rate - 1 ≤ l.rate * unit - unit := by
    unfold unit
    have := i.rate
    omega
  have hru : unit ≤ l.rate * unit := Nat.le_mul_of_pos_left unit i.rate
  have ha : ((l.rate * (t + waitTime l.rate tok) : Nat) : Int) =
      ((l.rate * t : Nat) : Int) + ((l.rate * waitTime l.rate tok : Nat) : Int) := by
    rw [Nat.mul_add]; omega
  -- the level at the time when waiting ends
  have hE : tok + ((l.rate * waitTime l.rate tok : Nat) : Int) ≤ ((l.rate * unit : Nat) : Int) - unit := by
    by_cases h : tok < 0
    · have := hw2 h
      have := i.rate
      omega
    · have : waitTime l.rate tok = 0 := by unfold waitTime; rw [if_neg h]
      rw [this]
      omega
  generalize waitTime l.rate tok = w at *
  have hsince : ∀ x, 1 ≤ (((t + w) :: acts).filter fun a => x ≤ a).length →
      tok + ((l.rate * x : Nat) : Int) + ((unit * (((t + w) :: acts).filter fun a => x ≤ a).length : Nat) : Int) ≤
        ((l.rate * unit : Nat) : Int) + ((l.rate * t : Nat) : Int) := by
    intro x
    by_cases hx : x ≤ t + w
    · rw [List.filter_cons_of_pos (by simpa using hx), List.length_cons]
      intro _
      by_cases hn : 1 ≤ (acts.filter fun a => x ≤ a).length
      · have := i.since x hn
        rw [Nat.mul_add]
        omega
      · have hz : (acts.filter fun a => x ≤ a).length = 0 := by omega
        rw [hz]
        have := Nat.mul_le_mul_left l.rate hx
        omega
    · rw [List.filter_cons_of_neg (by simpa using hx)]
      intro hn
      have := i.since x hn
      omega
  refine ⟨⟨i.rate, hsince, ?_⟩, rfl, rfl, by omega⟩
  intro x y hxy
  by_cases hin : x ≤ t + w ∧ t + w ≤ y
  · have hd : Spec.during ((t + w) :: acts) x y ≤ _ := during_le ..
    have hs := hsince x (by rw [List.filter_cons_of_pos (by simpa using hin.1)]; simp)
    have hy := Nat.mul_le_mul_left l.rate hin.2
    have hd' := Nat.mul_le_mul_left unit hd
    dsimp only
    omega
  · have : Spec.during ((t + w) :: acts) x y = Spec.during acts x y := by
      unfold Spec.during
      rw [List.filter_cons_of_neg (by simpa using hin)]
    rw [this]
    exact i.bound x y hxy

theorem binv_new (configured : Nat) : BInv (newLimiter configured) [] := by
  refine ⟨?_, ?_, ?_⟩
  · show 1 ≤ limitOf configured
    unfold limitOf
    split <;> omega
  · intro x h; simp at h
  · intro x y hxy
    have := Nat.mul_le_mul_left (newLimiter configured).rate hxy
    simp only [Spec.during, List.filter_nil, List.length_nil]
    omega

/-- What holds in every history. -/
structure Inv (configured : Nat) (s : State) (now : Nat) : Prop where
  bucket : BInv s.lim s.admitted
  rate : s.lim.rate = limitOf configured
  last : s.lim.last ≤ now

theorem inv_step {configured : Nat} {s : State} {now : Nat} (i : Inv configured s now) (o : Op)
    (ht : now ≤ Spec.time o) : Inv configured (step s o) (Spec.time o) := by
  have keep : ∀ t, now ≤ t → Inv configured s t := fun t h => ⟨i.bucket, i.rate, Nat.le_trans i.last h⟩
  have hres := fun t (h : now ≤ t) => binv_reserve i.bucket t (Nat.le_trans i.last h)
  have hwf : ∀ t, now ≤ t → Inv configured (waitForward s t) t := by
    intro t h
    obtain ⟨h1, h2, h3, -⟩ := hres t h
    exact ⟨h1, h3.trans i.rate, by show (reserve s.lim t).1.last ≤ t; omega⟩
  cases o with
  | relay t => exact hwf t ht
  | connect id quic t =>
    unfold step
    dsimp only
    split
    · exact keep t ht
    · obtain ⟨h1, h2, h3, -⟩ := hres t ht
      exact ⟨h1, h3.trans i.rate, by show (reserve s.lim t).1.last ≤ t; omega⟩
  | request id t =>
    unfold step
    dsimp only
    split
    · exact keep t ht
    · split
      · exact keep t ht
      · unfold request
        split
        · have := keep t ht; exact ⟨this.1, this.2, this.3⟩
        · split
          · have := keep t ht; exact ⟨this.1, this.2, this.3⟩
          · exact hwf t ht
  | setFlag id t =>
    unfold step
    dsimp only
    split
    · exact keep t ht
    · split
      · exact keep t ht
      · have := keep t ht; exact ⟨this.1, this.2, this.3⟩

theorem inv_run {configured : Nat} (ops : List Op) : ∀ {s : State} {now : Nat}, Inv configured s now →
    Spec.Ordered ops → (∀ o ∈ ops, now ≤ Spec.time o) → ∃ now', Inv configured (run s ops) now' := by
  induction ops with
  | nil => intro s now i _ _; exact ⟨now, i⟩
  | cons o os ih =>
    intro s now i ho hn
    unfold Spec.Ordered at ho
    rw [List.map_cons, List.pairwise_cons] at ho
    refine ih (inv_step i o (hn o List.mem_cons_self)) ho.2 ?_
    intro o' ho'
    exact ho.1 _ (List.mem_map.2 ⟨o', ho', rfl⟩)

/-- C136. Connections and requests that have to wait for the rate limit get through at no more than
the configured rate (5 per second by default): in any interval of `w` nanoseconds at most
`limit + limit * w / 10⁹` of them. -/
theorem rate_admitted (configured : Nat) (ops : List Op) (ho : Spec.Ordered ops) (x w : Nat) :
    Spec.during (run (init configured) ops).admitted x (x + w) * 1000000000 ≤
      (if configured = 0 then 5 else configured) * (1000000000 + w) := by
  obtain ⟨now, i⟩ := inv_run ops (s := init configured) (now := 0)
    ⟨binv_new configured, rfl, Nat.le_refl 0⟩ ho (fun _ _ => Nat.zero_le _)
  have h := i.bucket.bound x (x + w) (by omega)
  rw [i.rate, Nat.mul_add (limitOf configured) x w] at h
  have e : unit * Spec.during (run (init configured) ops).admitted x (x + w) =
      Spec.during (run (init configured) ops).admitted x (x + w) * 1000000000 := Nat.mul_comm ..
  have e2 : limitOf configured * (1000000000 + w) = limitOf configured * unit + limitOf configured * w := by
    rw [Nat.mul_add]; rfl
  show _ ≤ limitOf configured * (1000000000 + w)
  omega

/-! ## What is forwarded -/

/-- Connections whose first request is still to come, let in by time `x`. -/
def unused (cs : List Conn) (x : Nat) : Nat := (cs.filter fun k => k.flag = false ∧ k.since ≤ x).length

def upTo (l : List Nat) (x : Nat) : Nat := (l.filter fun a => a ≤ x).length

theorem upTo_cons (l : List Nat) (a x : Nat) : upTo (a :: l) x = upTo l x + if a ≤ x then 1 else 0 := by
  unfold upTo
  by_cases h : a ≤ x
  · rw [List.filter_cons_of_pos (by simpa using h), if_pos h]; rfl
  · rw [List.filter_cons_of_neg (by simpa using h), if_neg h]; rfl

theorem unused_cons (k : Conn) (cs : List Conn) (x : Nat) :
    unused (k :: cs) x = unused cs x + if k.flag = false ∧ k.since ≤ x then 1 else 0 := by
  unfold unused
  by_cases h : k.flag = false ∧ k.since ≤ x
  · rw [List.filter_cons_of_pos (by simpa using h), if_pos h]; rfl
  · rw [List.filter_cons_of_neg (by simpa using h), if_neg h]; rfl

theorem unused_update (cs : List Conn) (id : Nat) (f : Conn → Conn) (x : Nat)
    (hf : ∀ k, (f k).flag = k.flag ∧ (f k).since = k.since) : unused (update cs id f) x = unused cs x := by
  induction cs with
  | nil => rfl
  | cons k t ih =>
    unfold update at ih ⊢
    rw [List.map_cons, unused_cons, unused_cons, ih]
    split
    · rw [(hf k).1, (hf k).2]
    · rfl

theorem unused_flag_le (cs : List Conn) (id : Nat) (x : Nat) :
    unused (update cs id markFlag) x ≤ unused cs x := by
  induction cs with
  | nil => exact Nat.le_refl _
  | cons k t ih =>
    unfold update at ih ⊢
    rw [List.map_cons, unused_cons, unused_cons]
    split
    · rw [if_neg (fun h => nomatch h.1)]; omega
    · omega

theorem unused_flag (cs : List Conn) (id : Nat) (x : Nat) (k : Conn) (hk : find cs id = some k)
    (hf : k.flag = false) (hs : k.since ≤ x) :
    unused (update cs id markFlag) x + 1 ≤ unused cs x := by
  induction cs with
  | nil => cases hk
  | cons a t ih =>
    unfold find at hk ih
    have hle := unused_flag_le t id x
    unfold update at ih hle ⊢
    rw [List.map_cons, unused_cons, unused_cons]
    by_cases ha : a.id = id
    · rw [List.find?_cons_of_pos (by simpa using ha)] at hk
      cases hk
      rw [if_pos ha, if_neg (fun h => nomatch h.1), if_pos ⟨hf, hs⟩]
      omega
    · rw [List.find?_cons_of_neg (by simpa using ha)] at hk
      have := ih hk
      rw [if_neg ha]
      omega

structure FInv (s : State) : Prop where
  count : ∀ x, upTo s.forwarded x + unused s.conns x ≤ upTo s.admitted x
  quic : ∀ k ∈ s.conns, k.quic = true
  uniq : ∀ k ∈ s.conns, ∀ k' ∈ s.conns, k.id = k'.id → k = k'
  seen : ∀ k ∈ s.conns, k.seen ≤ 1 ∧ (k.seen = 1 → k.flag = false)

theorem mem_update {cs : List Conn} {id : Nat} {f : Conn → Conn} {k : Conn} (h : k ∈ update cs id f) :
    (k ∈ cs ∧ k.id ≠ id) ∨ ∃ k0 ∈ cs, k0.id = id ∧ k = f k0 := by
  unfold update at h
  obtain ⟨k0, h1, h2⟩ := List.mem_map.1 h
  split at h2
  · rename_i h3; exact .inr ⟨k0, h1, h3, h2.symm⟩
  · rename_i h3; subst h2; exact .inl ⟨h1, h3⟩

theorem finv_wait {s : State} (i : FInv s) (t : Nat) : FInv (waitForward s t) := by
  refine ⟨?_, i.quic, i.uniq, i.seen⟩
  intro x
  have := i.count x
  show upTo (_ :: s.forwarded) x + unused s.conns x ≤ upTo (_ :: s.admitted) x
  rw [upTo_cons, upTo_cons]
  omega

theorem uniq_update {cs : List Conn} {id : Nat} {f : Conn → Conn}
    (h : ∀ k ∈ cs, ∀ k' ∈ cs, k.id = k'.id → k = k') (hf : ∀ k, (f k).id = k.id) :
    ∀ k ∈ update cs id f, ∀ k' ∈ update cs id f, k.id = k'.id → k = k' := by
  intro k hk k' hk' he
  rcases mem_update hk with ⟨h1, h2⟩ | ⟨k0, h1, h2, rfl⟩ <;>
    rcases mem_update hk' with ⟨h3, h4⟩ | ⟨k1, h3, h4, rfl⟩
  · exact h k h1 k' h3 he
  · rw [hf] at he; exact absurd (he.trans h4) h2
  · rw [hf] at he; exact absurd (he.symm.trans h2) h4
  · rw [hf, hf] at he
    rw [h k0 h1 k1 h3 he]

theorem find_none {cs : List Conn} {id : Nat} (h : find cs id = none) : ∀ k ∈ cs, k.id ≠ id := by
  intro k hk
  simpa using List.find?_eq_none.1 h k hk

theorem finv_step {s : State} (i : FInv s) (o : Op) (h3 : Spec.http3 o)
    (h1 : ∀ id t, o = .request id t → ∀ k ∈ s.conns, k.id = id → k.seen = 0) : FInv (step s o) := by
  cases o with
  | relay t => exact finv_wait i t
  | connect id quic t =>
    unfold step
    dsimp only
    split
    · exact i
    · rename_i hnone
      have hn := find_none hnone
      refine ⟨?_, ?_, ?_, ?_⟩
      · intro x
        have := i.count x
        show upTo s.forwarded x + unused (_ :: s.conns) x ≤ upTo (_ :: s.admitted) x
        rw [upTo_cons, unused_cons]
        dsimp only
        simp only [true_and]
        omega
      · intro k hk
        rcases List.mem_cons.1 hk with rfl | hk
        · exact h3
        · exact i.quic k hk
      · intro k hk k' hk' he
        rcases List.mem_cons.1 hk with rfl | hk <;> rcases List.mem_cons.1 hk' with rfl | hk'
        · rfl
        · exact absurd he.symm (hn k' hk')
        · exact absurd he (hn k hk)
        · exact i.uniq k hk k' hk' he
      · intro k hk
        rcases List.mem_cons.1 hk with rfl | hk
        · exact ⟨Nat.zero_le _, fun h => (by cases h)⟩
        · exact i.seen k hk
  | request id t =>
    unfold step
    dsimp only
    cases hk : find s.conns id with
    | none => exact i
    | some k =>
      have hmem : k ∈ s.conns := List.mem_of_find?_eq_some hk
      have hid : k.id = id := by simpa using List.find?_some hk
      dsimp only
      split
      · exact i
      · unfold request
        rw [if_neg (by simp [i.quic k hmem])]
        split
        · rename_i hflag
          refine ⟨?_, ?_, uniq_update i.uniq (fun _ => rfl), ?_⟩
          · intro x
            show upTo s.forwarded x + unused (update s.conns k.id markSeen) x ≤ upTo s.admitted x
            rw [unused_update _ _ markSeen _ (fun _ => ⟨rfl, rfl⟩)]
            exact i.count x
          · intro k' hk'
            rcases mem_update hk' with ⟨hm, _⟩ | ⟨k0, hm, _, rfl⟩
            · exact i.quic k' hm
            · exact i.quic k0 hm
          · intro k' hk'
            rcases mem_update hk' with ⟨hm, _⟩ | ⟨k0, hm, h0, rfl⟩
            · exact i.seen k' hm
            · have := h1 id t rfl k0 hm (h0.trans hid)
              rw [i.uniq k0 hm k hmem h0] at this ⊢
              refine ⟨?_, fun _ => show k.flag = false by simpa using hflag⟩
              show k.seen + 1 ≤ 1
              omega
        · exact finv_wait i t
  | setFlag id t =>
    unfold step
    dsimp only
    cases hk : find s.conns id with
    | none => exact i
    | some k =>
      have hmem : k ∈ s.conns := List.mem_of_find?_eq_some hk
      dsimp only
      split
      · exact i
      · rename_i hc
        simp only [Bool.or_eq_true, decide_eq_true_eq, not_or] at hc
        have hseen := i.seen k hmem
        have hf : k.flag = false := hseen.2 (by omega)
        refine ⟨?_, ?_, uniq_update i.uniq (fun _ => rfl), ?_⟩
        · intro x
          show upTo (t :: s.forwarded) x + unused (update s.conns id markFlag) x ≤ upTo s.admitted x
          rw [upTo_cons]
          have := i.count x
          split
          · have := unused_flag s.conns id x k hk hf (by omega)
            omega
          · have := unused_flag_le s.conns id x
            omega
        · intro k' hk'
          rcases mem_update hk' with ⟨hm, _⟩ | ⟨k0, hm, _, rfl⟩
          · exact i.quic k' hm
          · exact i.quic k0 hm
        · intro k' hk'
          rcases mem_update hk' with ⟨hm, _⟩ | ⟨k0, hm, h0, rfl⟩
          · exact i.seen k' hm
          · have h2 := (i.seen k0 hm).1
            refine ⟨?_, ?_⟩
            · show k0.seen - 1 ≤ 1
              omega
            · intro h
              have : k0.seen - 1 = 1 := h
              omega

theorem finv_run (ops : List Op) : ∀ (s : State), FInv s → (∀ o ∈ ops, Spec.http3 o) →
    Spec.OneByOne s ops → FInv (run s ops) := by
  induction ops with
  | nil => intro s i _ _; exact i
  | cons o os ih =>
    intro s i h3 h1
    refine ih _ (finv_step i o (h3 o List.mem_cons_self) ?_) (fun o' ho' => h3 o' (List.mem_cons_of_mem _ ho')) h1.2
    intro id t ho
    subst ho
    exact h1.1

theorem during_zero (l : List Nat) (x : Nat) : Spec.during l 0 x = upTo l x := by
  unfold Spec.during upTo
  congr 1
  apply List.filter_congr
  intro a _
  simp

/-- C136. When HTTP clients use HTTP/3, and send no other request on a connection before the first one
is let through, everything that is forwarded has been let through by the rate limit: by any time, no
more connections and requests have been forwarded than the limiter has let through, so no more than
`limit + limit * x / 10⁹` by the time `x`.

What is missing: HTTP/1 and HTTP/2, for which it is false (`rate_forwarded_violated`), and requests
that are concurrent with the first one of a connection, for which it is false too
(`rate_first_requests_violated`). -/
theorem rate_forwarded_partial (configured : Nat) (ops : List Op) (ho : Spec.Ordered ops)
    (h3 : ∀ o ∈ ops, Spec.http3 o) (h1 : Spec.OneByOne (init configured) ops) (x : Nat) :
    Spec.during (run (init configured) ops).forwarded 0 x ≤
      Spec.during (run (init configured) ops).admitted 0 x ∧
    Spec.during (run (init configured) ops).forwarded 0 x * 1000000000 ≤
      (if configured = 0 then 5 else configured) * (1000000000 + x) := by
  have i := finv_run ops (init configured)
    ⟨fun _ => Nat.le_refl _, fun _ h => (nomatch h), fun _ h => (nomatch h), fun _ h => (nomatch h)⟩ h3 h1
  have h := i.count x
  have hr := rate_admitted configured ops ho 0 x
  rw [Nat.zero_add] at hr
  rw [during_zero, during_zero] at *
  exact ⟨by omega, Nat.le_trans (Nat.mul_le_mul_right _ (by omega)) hr⟩

/-! ## What is not limited -/

theorem run_requests (n : Nat) : ∀ (s : State) (k : Conn), find s.conns k.id = some k → k.quic = false →
    k.since = 0 → (run s (List.replicate n (.request k.id 0))).forwarded = List.replicate n 0 ++ s.forwarded ∧
    (run s (List.replicate n (.request k.id 0))).admitted = s.admitted := by
  induction n with
  | zero => intro s k _ _ _; exact ⟨rfl, rfl⟩
  | succ n ih =>
    intro s k hk hq hs
    have hstep : step s (.request k.id 0) = { s with forwarded := 0 :: s.forwarded } := by
      unfold step
      dsimp only
      rw [hk]
      dsimp only
      rw [if_neg (by omega)]
      unfold request
      rw [if_pos (by simp [hq])]
    have := ih (step s (.request k.id 0)) k (by rw [hstep]; exact hk) hq hs
    rw [List.replicate_succ]
    show (run (step s _) _).forwarded = _ ∧ (run (step s _) _).admitted = _
    rw [this.1, this.2, hstep]
    refine ⟨?_, rfl⟩
    rw [List.replicate_succ, List.cons_append]
    show List.replicate n 0 ++ 0 :: s.forwarded = _
    rw [← List.singleton_append, ← List.append_assoc, ← List.replicate_succ', List.replicate_succ,
      List.cons_append]

/-- C136 violated. A client that keeps one HTTP/1 or HTTP/2 connection open has any number of requests
forwarded at once, whatever the limit: the limiter is asked once, for the connection. -/
theorem rate_forwarded_violated (configured n : Nat) :
    ∃ ops, Spec.Ordered ops ∧
      Spec.during (run (init configured) ops).forwarded 0 0 = n ∧
      Spec.during (run (init configured) ops).admitted 0 0 = 1 := by
  have hw : (reserve (newLimiter configured) 0).2 = 0 := by
    unfold reserve waitTime advance newLimiter
    dsimp only
    rw [if_neg]
    have : 1 ≤ limitOf configured := by unfold limitOf; split <;> omega
    have := Nat.le_mul_of_pos_left unit this
    omega
  let s := step (init configured) (.connect 1 false 0)
  have hs : s = { lim := (reserve (newLimiter configured) 0).1, conns := [⟨1, false, 0, false, 0⟩]
                  admitted := [0], forwarded := [] } := by
    show step (init configured) (.connect 1 false 0) = _
    unfold step find init
    dsimp only [List.find?_nil]
    rw [hw]
  have h := run_requests n s ⟨1, false, 0, false, 0⟩ (by rw [hs]; rfl) rfl rfl
  refine ⟨.connect 1 false 0 :: List.replicate n (.request 1 0), ?_, ?_, ?_⟩
  · unfold Spec.Ordered
    rw [List.map_cons, List.map_replicate, List.pairwise_cons]
    refine ⟨fun _ _ => Nat.zero_le _, List.pairwise_replicate.2 (.inr (Nat.le_refl 0))⟩
  · show Spec.during (run s _).forwarded 0 0 = n
    rw [h.1, hs, List.append_nil]
    unfold Spec.during
    rw [List.filter_replicate_of_pos (by simp), List.length_replicate]
  · show Spec.during (run s _).admitted 0 0 = 1
    rw [h.2, hs]
    rfl

/-- C136 violated, for HTTP/3. Requests that begin before the first one of the connection has set the
flag are all taken for the first one: with a limit of 1 per second, three requests are forwarded at
once on a connection for which the limiter was asked once. -/
theorem rate_first_requests_violated :
    ∃ ops, Spec.Ordered ops ∧ (∀ o ∈ ops, Spec.http3 o) ∧
      Spec.during (run (init 1) ops).forwarded 0 0 = 3 ∧
      Spec.during (run (init 1) ops).admitted 0 0 = 1 :=
  ⟨[.connect 1 true 0, .request 1 0, .request 1 0, .request 1 0, .setFlag 1 0, .setFlag 1 0, .setFlag 1 0],
    by unfold Spec.Ordered; decide,
    by
      intro o ho
      simp only [List.mem_cons, List.not_mem_nil, or_false] at ho
      rcases ho with rfl | rfl | rfl | rfl | rfl | rfl | rfl <;> first | rfl | trivial,
    by decide +kernel, by decide +kernel⟩

/-! ## Examples -/

/-- The history of `rate_forwarded_partial`: a relayed connection, and two requests on an HTTP/3
connection, the second of which waits for a second. -/
def exOps : List Op := [.relay 0, .connect 1 true 0, .request 1 0, .setFlag 1 0, .request 1 5]

example : Spec.Ordered exOps := by unfold Spec.Ordered; decide

example : Spec.OneByOne (init 2) exOps := by
  simp only [Spec.OneByOne, exOps]
  decide +kernel

example : (run (init 2) exOps).forwarded = [500000000, 0, 0] ∧
    (run (init 2) exOps).admitted = [500000000, 0, 0] := by decide +kernel

example : Spec.during (run (init 2) exOps).admitted 0 499999999 = 2 := by decide +kernel

end Verif.Rate
