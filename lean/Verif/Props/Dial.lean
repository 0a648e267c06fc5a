import Verif.Model.Dial
/-
C13, C14, C18.
-/
namespace Verif.Dial

/-! ## Specification -/

/-- The positions attempted for one address list, oldest first. -/
def Spec.attempts (s : St) (slot : Option Nat) : List Nat :=
  (s.log.filter fun e => e.1 = slot).map (·.2)

/-- The data forwarded for dial `i` by a sequence of operations. -/
def Spec.sent (i : Nat) : List Op → Bytes
  | [] => []
  | .send j d :: ops => (if j = i then d else []) ++ Spec.sent i ops
  | _ :: ops => Spec.sent i ops

/-- What a backend server must receive before client data. -/
def Spec.header (enc : Header → Bytes) (d : Dest) (c : Client) : Bytes :=
  if d.mode ≠ "QUIC" ∧ d.ppVersion ≠ 0 then
    enc { version := d.ppVersion, src := c.remote, dst := c.local_,
          tlvs := (if c.serverName = "" then [] else [(2, c.serverName)]) ++
            (if c.proto = "" then [] else [(1, c.proto)]) }
  else []

/-! ## Helpers -/

theorem headerFor_spec (enc : Header → Bytes) (d : Dest) (c : Client)
    (h : ¬ (d.mode = "QUIC" ∨ d.ppVersion = 0)) :
    enc (headerFor d.ppVersion c) = Spec.header enc d c := by
  rw [not_or] at h
  unfold Spec.header headerFor
  by_cases h1 : c.serverName = "" <;> by_cases h2 : c.proto = "" <;> simp [h, h1, h2]

/-- The turn of the loop, summarised. -/
theorem turn_spec (enc : Header → Bytes) (d : Dest) (next : Nat) (x : D) (net : Net)
    (hn : next < d.addresses.length) :
    let r := turn enc d next x net
    r.1 = (next + 1) % d.addresses.length ∧ r.2.tried = x.tried ++ [next] ∧ r.2.slot = x.slot ∧
    r.2.client = x.client ∧ r.2.result ≠ some .panicked ∨ x.result = some .panicked := by
  unfold turn
  dsimp only
  rw [if_neg (Nat.not_le.mpr hn)]
  generalize (if x.max = 0 then d.addresses.length else x.max) = m
  by_cases hp : x.result = some .panicked
  · exact Or.inr hp
  · left
    unfold failed
    split
    · split <;> simp [hp]
    · split
      · simp
      · split
        · simp
        · split <;> simp [hp]

theorem turn_panic (enc : Header → Bytes) (d : Dest) (next : Nat) (x : D) (net : Net)
    (hn : next < d.addresses.length) (hx : x.result = none) :
    (turn enc d next x net).1 = (next + 1) % d.addresses.length ∧
    (turn enc d next x net).2.tried = x.tried ++ [next] ∧
    (turn enc d next x net).2.slot = x.slot ∧
    (turn enc d next x net).2.client = x.client ∧
    (turn enc d next x net).2.result ≠ some .panicked ∧
    (turn enc d next x net).2.result ≠ some .noAddresses := by
  have h := turn_spec enc d next x net hn
  simp only [hx, reduceCtorEq, or_false] at h
  refine ⟨h.1, h.2.1, h.2.2.1, h.2.2.2.1, h.2.2.2.2, ?_⟩
  unfold turn failed
  dsimp only
  rw [if_neg (Nat.not_le.mpr hn)]
  generalize (if x.max = 0 then d.addresses.length else x.max) = m
  split
  · split <;> simp [hx]
  · split
    · simp
    · split
      · simp
      · split <;> simp [hx]

/-- Invariant of the shared positions. -/
structure Inv (b : Backend) (s : St) : Prop where
  log : ∀ slot, Spec.attempts s slot =
    (List.range (Spec.attempts s slot).length).map (· % (destOf b slot).addresses.length)
  next : ∀ slot, s.next slot = (Spec.attempts s slot).length % (destOf b slot).addresses.length
  empty : ∀ slot, (destOf b slot).addresses.length = 0 → Spec.attempts s slot = []
  live : ∀ x ∈ s.dials, x.result = none → 0 < (destOf b x.slot).addresses.length
  nopanic : ∀ x ∈ s.dials, x.result ≠ some .panicked

theorem inv_init (b : Backend) : Inv b {} := by
  constructor <;> simp [Spec.attempts]

theorem inv_next {b : Backend} {s : St} (h : Inv b s) (slot : Option Nat)
    (hpos : 0 < (destOf b slot).addresses.length) : s.next slot < (destOf b slot).addresses.length := by
  rw [h.next]; exact Nat.mod_lt _ hpos

theorem send_result (x : D) (data : Bytes) :
    (x.send data).result = x.result ∧ (x.send data).slot = x.slot ∧ (x.send data).tried = x.tried ∧
    (x.send data).client = x.client ∧ (x.send data).max = x.max := by
  unfold D.send
  split
  · split <;> simp
  · simp

theorem inv_step (enc : Header → Bytes) {b : Backend} {s : St} (h : Inv b s) (op : Op) :
    Inv b (s.step enc b op) := by
  cases op with
  | start c =>
    simp only [St.step]
    refine ⟨h.log, h.next, h.empty, ?_, ?_⟩
    · intro x hx hr
      simp only [List.mem_append, List.mem_singleton] at hx
      rcases hx with hx | rfl
      · exact h.live x hx hr
      · dsimp only at hr ⊢
        split at hr
        · cases hr
        · omega
    · intro x hx
      simp only [List.mem_append, List.mem_singleton] at hx
      rcases hx with hx | rfl
      · exact h.nopanic x hx
      · dsimp only
        split <;> simp
  | attempt i net =>
    simp only [St.step]
    split
    · exact h
    · rename_i x hx
      split
      · exact h
      · rename_i hr
        have hr' : x.result = none := by
          cases hxr : x.result with
          | none => rfl
          | some r => rw [hxr] at hr; simp at hr
        have hmem : x ∈ s.dials := List.mem_of_getElem? hx
        have hpos := h.live x hmem hr'
        have hlt := inv_next h x.slot hpos
        obtain ⟨t1, t2, t3, t4, t5, t6⟩ := turn_panic enc (destOf b x.slot) (s.next x.slot) x net hlt hr'
        rw [if_neg t5]
        have hatt : ∀ slot, Spec.attempts
            { next := fun k => if k = x.slot then (turn enc (destOf b x.slot) (s.next x.slot) x net).1 else s.next k
              dials := s.dials.set i (turn enc (destOf b x.slot) (s.next x.slot) x net).2
              log := s.log ++ [(x.slot, s.next x.slot)] } slot =
            Spec.attempts s slot ++ (if slot = x.slot then [s.next x.slot] else []) := by
          intro slot
          unfold Spec.attempts
          simp only [List.filter_append, List.map_append]
          by_cases hs : slot = x.slot
          · subst hs; simp
          · have : ¬ x.slot = slot := fun e => hs e.symm
            simp [hs, this]
        refine ⟨?_, ?_, ?_, ?_, ?_⟩
        · intro slot
          rw [hatt]
          by_cases hs : slot = x.slot
          · subst hs
            rw [if_pos rfl, List.length_append, List.length_singleton, List.range_succ, List.map_append,
              ← h.log, List.map_singleton, ← h.next]
          · rw [if_neg hs, List.append_nil, ← h.log]
        · intro slot
          rw [hatt]
          by_cases hs : slot = x.slot
          · subst hs
            simp only [if_true, List.length_append, List.length_singleton]
            rw [t1, h.next, Nat.mod_add_mod]
          · simp only [if_neg hs, List.append_nil]
            exact h.next slot
        · intro slot h0
          rw [hatt]
          by_cases hs : slot = x.slot
          · subst hs; omega
          · rw [if_neg hs, List.append_nil]; exact h.empty slot h0
        · intro y hy hyr
          rcases List.mem_or_eq_of_mem_set hy with hy | rfl
          · exact h.live y hy hyr
          · rw [t3]; exact hpos
        · intro y hy
          rcases List.mem_or_eq_of_mem_set hy with hy | rfl
          · exact h.nopanic y hy
          · exact t5
  | send i data =>
    simp only [St.step]
    split
    · exact h
    · rename_i x hx
      have hmem : x ∈ s.dials := List.mem_of_getElem? hx
      obtain ⟨e1, e2, _⟩ := send_result x data
      refine ⟨h.log, h.next, h.empty, ?_, ?_⟩
      · intro y hy hyr
        rcases List.mem_or_eq_of_mem_set hy with hy | rfl
        · exact h.live y hy hyr
        · rw [e2]; exact h.live x hmem (by rw [← e1]; exact hyr)
      · intro y hy
        rcases List.mem_or_eq_of_mem_set hy with hy | rfl
        · exact h.nopanic y hy
        · rw [e1]; exact h.nopanic x hmem

theorem inv_run (enc : Header → Bytes) {b : Backend} (ops : List Op) {s : St} (h : Inv b s) :
    Inv b (s.run enc b ops) := by
  induction ops generalizing s with
  | nil => exact h
  | cons op ops ih => exact ih (inv_step enc h op)

/-! ## C13 -/

theorem count_window_shift (a n i : Nat) :
    ((List.range' (a + 1) n).map (· % n)).count i = ((List.range' a n).map (· % n)).count i := by
  cases n with
  | zero => rfl
  | succ m =>
    have e1 : List.range' (a + 1) (m + 1) = List.range' (a + 1) m ++ [a + 1 + m] := by
      rw [List.range'_concat]; simp
    have e2 : List.range' a (m + 1) = a :: List.range' (a + 1) m := by
      rw [List.range'_succ]
    rw [e1, e2]
    simp only [List.map_append, List.map_cons, List.map_nil, List.count_append, List.count_cons,
      List.count_nil]
    have : (a + 1 + m) % (m + 1) = a % (m + 1) := by
      have : a + 1 + m = a + (m + 1) := by omega
      rw [this, Nat.add_mod_right]
    rw [this]; omega

theorem count_window_one (a n i : Nat) (hi : i < n) :
    ((List.range' a n).map (· % n)).count i = 1 := by
  induction a with
  | zero =>
    have : (List.range' 0 n).map (· % n) = List.range n := by
      rw [← List.range_eq_range']
      conv => rhs; rw [← List.map_id (List.range n)]
      apply List.map_congr_left
      intro x hx
      simp at hx
      exact Nat.mod_eq_of_lt hx
    rw [this]
    rw [List.Nodup.count List.nodup_range, if_pos (by simpa using hi)]
  | succ a ih => rw [count_window_shift]; exact ih

theorem count_window (a k n i : Nat) (hi : i < n) :
    ((List.range' a (k * n)).map (· % n)).count i = k := by
  induction k generalizing a with
  | zero => simp
  | succ k ih =>
    have : (k + 1) * n = n + k * n := by rw [Nat.succ_mul, Nat.add_comm]
    rw [this, ← List.range'_append_1, List.map_append, List.count_append, count_window_one a n i hi, ih]
    omega

/-- C13, range. Under every interleaving of concurrent dials, with every outcome, the shared
position stays inside the address list and no dial reads outside it. -/
theorem roundrobin_in_range (enc : Header → Bytes) (b : Backend) (ops : List Op) :
    let s := ({} : St).run enc b ops
    (∀ slot, 0 < (destOf b slot).addresses.length → s.next slot < (destOf b slot).addresses.length) ∧
    (∀ x ∈ s.dials, x.result ≠ some .panicked) ∧
    (∀ slot, ∀ i ∈ Spec.attempts s slot, i < (destOf b slot).addresses.length) := by
  have h := inv_run enc ops (inv_init b)
  refine ⟨fun slot hp => inv_next h slot hp, h.nopanic, ?_⟩
  intro slot i hi
  by_cases h0 : (destOf b slot).addresses.length = 0
  · rw [h.empty slot h0] at hi; cases hi
  · rw [h.log] at hi
    simp only [List.mem_map, List.mem_range] at hi
    obtain ⟨k, _, rfl⟩ := hi
    exact Nat.mod_lt _ (by omega)

/-- C13, fairness. In every stretch of `k * n` consecutive attempts on an address list of
length `n`, each address is attempted exactly `k` times. -/
theorem roundrobin_fair (enc : Header → Bytes) (b : Backend) (ops : List Op) (slot : Option Nat)
    (pre mid post : List Nat) (k : Nat)
    (hsplit : Spec.attempts (({} : St).run enc b ops) slot = pre ++ mid ++ post)
    (hlen : mid.length = k * (destOf b slot).addresses.length)
    (i : Nat) (hi : i < (destOf b slot).addresses.length) : mid.count i = k := by
  have h := inv_run enc ops (inv_init b)
  have hl := h.log slot
  rw [hsplit] at hl
  have hmid : mid = ((List.range' pre.length mid.length).map (· % (destOf b slot).addresses.length)) := by
    have e := congrArg (fun l => (l.drop pre.length).take mid.length) hl
    simp only [List.append_assoc, List.drop_left, List.take_left] at e
    rw [← List.map_drop, ← List.map_take, List.range_eq_range', List.drop_range'] at e
    have hsum : (pre ++ (mid ++ post)).length - pre.length = mid.length + post.length := by simp
    have hlen' : (List.range' pre.length mid.length).length = mid.length := by simp
    rw [hsum, Nat.mul_one, Nat.zero_add, ← List.range'_append_1, List.take_left' hlen'] at e
    exact e
  rw [hmid, hlen]
  exact count_window _ _ _ _ hi

def Spec.b3 : Backend where
  main := { addresses := ["x", "y", "z"], mode := "TCP", ppVersion := 2 }

/-- Two concurrent dials over three addresses. -/
example : Spec.attempts (({} : St).run (fun _ => [1, 2]) Spec.b3
      [.start {}, .start {}, .attempt 0 .refused, .attempt 1 .refused, .attempt 0 .refused,
       .attempt 1 (.connected none), .start {}, .attempt 2 (.connected (some 1)),
       .attempt 2 (.connected none)]) none = [0, 1, 2, 0, 1, 2] := by decide

/-! ## C14 -/

/-- Every attempt is answered according to which servers are up: `up slot j` says that the
server at position `j` of the list accepts connections (and the header). -/
def Spec.answered (enc : Header → Bytes) (b : Backend) (up : Option Nat → Nat → Bool) :
    St → List Op → Bool
  | _, [] => true
  | s, op :: ops =>
    (match op with
      | .attempt i net =>
        match s.dials[i]? with
        | some x => net == (if up x.slot (s.next x.slot) then .connected none else .refused)
        | none => true
      | _ => true) && Spec.answered enc b up (s.step enc b op) ops

/-- C14 (violated). Two dials share the position: with two addresses of which the second one
is reachable, the attempts can interleave so that the first dial gets the unreachable address
twice and fails without ever trying the reachable one. -/
theorem dial_tries_all_violated :
    ¬ ∀ (enc : Header → Bytes) (b : Backend) (up : Option Nat → Nat → Bool) (ops : List Op),
      Spec.answered enc b up {} ops = true →
      ∀ (i : Nat) (x : D), (({} : St).run enc b ops).dials[i]? = some x → x.result = some .error →
        ∀ j, j < (destOf b x.slot).addresses.length → j ∈ x.tried ∧ up x.slot j = false := by
  intro h
  have := h (fun _ => []) { main := { addresses := ["down", "up"], mode := "TCP" } } (fun _ j => j == 1)
    [.start {}, .start {}, .attempt 0 .refused, .attempt 1 (.connected none), .attempt 0 .refused]
    (by decide) 0
    { client := {}, slot := none, max := 0, tried := [0, 0], result := some .error } (by decide) rfl 1
    (by decide)
  revert this; decide

/-- The operation is not an attempt by another dial on the same address list. -/
def Spec.noInterference (b : Backend) (enc : Header → Bytes) (i : Nat) (slot : Option Nat) (s : St) :
    List Op → Prop
  | [] => True
  | op :: ops =>
    (match op with
      | .attempt j _ => j = i ∨ ∀ y, s.dials[j]? = some y → y.slot ≠ slot ∨ y.result ≠ none
      | _ => True) ∧
    Spec.noInterference b enc i slot (s.step enc b op) ops

structure DInv (b : Backend) (s : St) (i : Nat) (n0 : Nat) (x : D) : Prop where
  get : s.dials[i]? = some x
  tried : x.tried = (List.range x.tried.length).map fun k => (n0 + k) % (destOf b x.slot).addresses.length
  next : x.result = none → s.next x.slot = (n0 + x.tried.length) % (destOf b x.slot).addresses.length
  fresh : x.result = none → (x.tried = [] ∧ x.max = 0 ∨
    0 < x.max ∧ x.max + x.tried.length = (destOf b x.slot).addresses.length)
  err : x.result = some .error → x.tried.length = (destOf b x.slot).addresses.length

theorem turn_max (enc : Header → Bytes) (d : Dest) (next : Nat) (x : D) (net : Net)
    (hn : next < d.addresses.length) (hx : x.result = none) :
    let m := if x.max = 0 then d.addresses.length else x.max
    ((turn enc d next x net).2.result = none → (turn enc d next x net).2.max = m - 1 ∧ 0 < m - 1) ∧
    ((turn enc d next x net).2.result = some .error → m - 1 = 0) := by
  unfold turn failed
  dsimp only
  rw [if_neg (Nat.not_le.mpr hn)]
  generalize (if x.max = 0 then d.addresses.length else x.max) = m
  split
  · split
    · rename_i h; simp [hx]; omega
    · rename_i h; simp; omega
  · split
    · simp
    · split
      · simp
      · split
        · rename_i h; simp [hx]; omega
        · rename_i h; simp; omega

theorem dinv_step (enc : Header → Bytes) {b : Backend} {s : St} (hI : Inv b s) {i n0 : Nat} {x : D}
    (h : DInv b s i n0 x) (op : Op)
    (hno : match op with
      | .attempt j _ => j = i ∨ ∀ y, s.dials[j]? = some y → y.slot ≠ x.slot ∨ y.result ≠ none
      | _ => True) :
    ∃ x', DInv b (s.step enc b op) i n0 x' ∧ x'.slot = x.slot := by
  have hlt : i < s.dials.length := (List.getElem?_eq_some_iff.mp h.get).1
  cases op with
  | start c =>
    refine ⟨x, ⟨?_, h.tried, h.next, h.fresh, h.err⟩, rfl⟩
    simp only [St.step]
    rw [List.getElem?_append_left hlt]; exact h.get
  | send j data =>
    simp only [St.step]
    split
    · exact ⟨x, h, rfl⟩
    · rename_i y hy
      by_cases hj : j = i
      · subst hj
        have : y = x := by rw [h.get] at hy; exact (Option.some.inj hy).symm
        subst this
        obtain ⟨e1, e2, e3, e4, e5⟩ := send_result y data
        refine ⟨y.send data, ⟨?_, ?_, ?_, ?_, ?_⟩, e2⟩
        · simp [hlt]
        · rw [e3, e2]; exact h.tried
        · rw [e1, e2, e3]; exact h.next
        · rw [e1, e2, e3, e5]; exact h.fresh
        · rw [e1, e2, e3]; exact h.err
      · refine ⟨x, ⟨?_, h.tried, h.next, h.fresh, h.err⟩, rfl⟩
        simp only
        rw [List.getElem?_set_ne hj]; exact h.get
  | attempt j net =>
    simp only [St.step]
    split
    · exact ⟨x, h, rfl⟩
    · rename_i y hy
      split
      · exact ⟨x, h, rfl⟩
      · rename_i hr
        have hr' : y.result = none := by
          cases hxr : y.result with
          | none => rfl
          | some r => rw [hxr] at hr; simp at hr
        by_cases hj : j = i
        · subst hj
          have : y = x := by rw [h.get] at hy; exact (Option.some.inj hy).symm
          subst this
          have hpos := hI.live y (List.mem_of_getElem? hy) hr'
          have hn := inv_next hI y.slot hpos
          obtain ⟨t1, t2, t3, t4, t5, t6⟩ := turn_panic enc (destOf b y.slot) (s.next y.slot) y net hn hr'
          have tm := turn_max enc (destOf b y.slot) (s.next y.slot) y net hn hr'
          dsimp only at tm
          refine ⟨(turn enc (destOf b y.slot) (s.next y.slot) y net).2, ⟨?_, ?_, ?_, ?_, ?_⟩, t3⟩
          · simp [hlt]
          · rw [t2, t3, List.length_append, List.length_singleton, List.range_succ, List.map_append,
              ← h.tried, List.map_singleton, ← h.next hr']
          · intro _
            rw [t3, t2]
            simp only [if_true, List.length_append, List.length_singleton]
            rw [t1, h.next hr', Nat.mod_add_mod, Nat.add_assoc]
          · intro hnone
            right
            have := tm.1 hnone
            rw [this.1, t2, t3, List.length_append, List.length_singleton]
            rcases h.fresh hr' with ⟨f1, f2⟩ | ⟨f1, f2⟩
            · rw [f2] at this ⊢
              simp only [if_true] at this ⊢
              rw [f1]; simp; omega
            · rw [if_neg (by omega)] at this ⊢
              omega
          · intro herr
            have := tm.2 herr
            rw [t2, t3, List.length_append, List.length_singleton]
            rcases h.fresh hr' with ⟨f1, f2⟩ | ⟨f1, f2⟩
            · rw [f2] at this
              simp only [if_true] at this
              rw [f1]; simp; omega
            · rw [if_neg (by omega)] at this
              omega
        · refine ⟨x, ⟨?_, h.tried, ?_, h.fresh, h.err⟩, rfl⟩
          · simp only
            rw [List.getElem?_set_ne hj]; exact h.get
          · intro hx
            have : y.slot ≠ x.slot := by
              rcases hno with hno | hno
              · exact absurd hno hj
              · rcases hno y hy with h' | h'
                · exact h'
                · exact absurd hr' h'
            simp only
            rw [if_neg (fun e => this e.symm)]
            exact h.next hx

theorem dinv_run (enc : Header → Bytes) {b : Backend} (ops : List Op) {s : St} (hI : Inv b s) {i n0 : Nat}
    {x : D} (h : DInv b s i n0 x) (hno : Spec.noInterference b enc i x.slot s ops) :
    ∃ x', DInv b (s.run enc b ops) i n0 x' ∧ x'.slot = x.slot := by
  induction ops generalizing s x with
  | nil => exact ⟨x, h, rfl⟩
  | cons op ops ih =>
    obtain ⟨x1, h1, e1⟩ := dinv_step enc hI h op hno.1
    have hno2 : Spec.noInterference b enc i x1.slot (s.step enc b op) ops := by
      rw [e1]; exact hno.2
    obtain ⟨x2, h2, e2⟩ := ih (inv_step enc hI op) h1 hno2
    exact ⟨x2, h2, e2.trans e1⟩

theorem mem_residues (n0 n i : Nat) (hi : i < n) :
    i ∈ (List.range n).map fun k => (n0 + k) % n := by
  have : ((List.range' n0 n).map (· % n)).count i = 1 := count_window_one n0 n i hi
  have hm : i ∈ (List.range' n0 n).map (· % n) := List.count_pos_iff.mp (by omega)
  rw [List.range'_eq_map_range, List.map_map] at hm
  exact hm

/-- C14 (partial). Whatever happened before, and whatever happens meanwhile on other address
lists: if no other dial attempts an address of the same list between the start and the end of a
dial, then the dial fails only after it has tried every address of the list.
Missing: interleaved dials on the same list (`dial_tries_all_violated`). -/
theorem dial_tries_all_partial (enc : Header → Bytes) (b : Backend) (before after : List Op) (c : Client) :
    let s0 := ({} : St).run enc b before
    let s1 := s0.step enc b (.start c)
    let i := s0.dials.length
    Spec.noInterference b enc i (slotOf b c) s1 after →
    ∀ x, (s1.run enc b after).dials[i]? = some x → x.result = some .error →
      x.slot = slotOf b c ∧ x.tried.length = (destOf b x.slot).addresses.length ∧
      ∀ j, j < (destOf b x.slot).addresses.length → j ∈ x.tried := by
  intro s0 s1 i hno x hx hr
  have hI0 : Inv b s0 := inv_run enc before (inv_init b)
  have hI1 : Inv b s1 := inv_step enc hI0 _
  let d0 : D :=
    { client := c
      slot := slotOf b c
      result := if (destOf b (slotOf b c)).addresses.length = 0 then some Result.noAddresses else none }
  have hd : DInv b s1 i (s0.next (slotOf b c)) d0 := by
    refine ⟨?_, ?_, ?_, ?_, ?_⟩
    · simp [s1, i, St.step, d0]
    · simp [d0]
    · intro hnone
      simp only [d0, List.length_nil, Nat.add_zero, s1, St.step]
      have : 0 < (destOf b (slotOf b c)).addresses.length := by
        simp only [d0] at hnone
        split at hnone
        · cases hnone
        · omega
      rw [Nat.mod_eq_of_lt (inv_next hI0 _ this)]
    · intro _; exact Or.inl ⟨rfl, rfl⟩
    · intro he
      simp only [d0] at he
      split at he <;> cases he
  obtain ⟨x', h', e'⟩ := dinv_run enc after hI1 hd hno
  have : x' = x := by rw [h'.get] at hx; exact Option.some.inj hx
  subst this
  refine ⟨e', h'.err hr, ?_⟩
  intro j hj
  rw [h'.tried, h'.err hr]
  exact mem_residues _ _ _ hj

/-- The positions an unsuccessful dial has tried are all down. -/
theorem tried_down (enc : Header → Bytes) (b : Backend) (up : Option Nat → Nat → Bool) (ops : List Op) :
    ∀ (s : St), Inv b s → Spec.answered enc b up s ops = true →
      (∀ x ∈ s.dials, x.result ≠ some .ok → ∀ j ∈ x.tried, up x.slot j = false) →
      ∀ x ∈ (s.run enc b ops).dials, x.result ≠ some .ok → ∀ j ∈ x.tried, up x.slot j = false := by
  induction ops with
  | nil => intro s _ _ h; exact h
  | cons op ops ih =>
    intro s hI ha h
    simp only [Spec.answered, Bool.and_eq_true] at ha
    refine ih _ (inv_step enc hI op) ha.2 ?_
    intro x hx hr
    cases op with
    | start c =>
      simp only [St.step, List.mem_append, List.mem_singleton] at hx
      rcases hx with hx | rfl
      · exact h x hx hr
      · simp
    | send j data =>
      simp only [St.step] at hx
      split at hx
      · exact h x hx hr
      · rename_i y hy
        rcases List.mem_or_eq_of_mem_set hx with hx | rfl
        · exact h x hx hr
        · obtain ⟨e1, e2, e3, e4, e5⟩ := send_result y data
          rw [e1] at hr
          rw [e2, e3]
          exact h y (List.mem_of_getElem? hy) hr
    | attempt j net =>
      simp only [St.step] at hx
      split at hx
      · exact h x hx hr
      · rename_i y hy
        split at hx
        · exact h x hx hr
        · rename_i hyr
          have hr' : y.result = none := by
            cases hxr : y.result with
            | none => rfl
            | some r => rw [hxr] at hyr; simp at hyr
          rcases List.mem_or_eq_of_mem_set hx with hx | rfl
          · exact h x hx hr
          · have hmem := List.mem_of_getElem? hy
            have hpos := hI.live y hmem hr'
            have hn := inv_next hI y.slot hpos
            obtain ⟨t1, t2, t3, t4, t5, t6⟩ := turn_panic enc (destOf b y.slot) (s.next y.slot) y net hn hr'
            rw [t2, t3]
            intro k hk
            simp only [List.mem_append, List.mem_singleton] at hk
            rcases hk with hk | rfl
            · exact h y hmem (by rw [hr']; simp) k hk
            · have h1 := ha.1
              simp only [hy, beq_iff_eq] at h1
              cases hup : up y.slot (s.next y.slot) with
              | false => rfl
              | true =>
                rw [hup] at h1
                simp only [if_true] at h1
                subst h1
                exfalso; apply hr
                unfold turn
                dsimp only
                rw [if_neg (Nat.not_le.mpr hn)]
                split <;> rfl

/-- C14 (partial), reachability. If attempts are answered according to which servers are up,
and no other dial uses the same address list meanwhile, a dial that fails implies that every
server of the list is down; so if any is reachable the client gets connected. -/
theorem dial_fails_only_if_all_down_partial (enc : Header → Bytes) (b : Backend)
    (up : Option Nat → Nat → Bool) (before after : List Op) (c : Client)
    (ha : Spec.answered enc b up {} (before ++ .start c :: after) = true) :
    let s0 := ({} : St).run enc b before
    let s1 := s0.step enc b (.start c)
    let i := s0.dials.length
    Spec.noInterference b enc i (slotOf b c) s1 after →
    ∀ x, (s1.run enc b after).dials[i]? = some x → x.result = some .error →
      ∀ j, j < (destOf b x.slot).addresses.length → up x.slot j = false := by
  intro s0 s1 i hno x hx hr j hj
  have hj' := (dial_tries_all_partial enc b before after c hno x hx hr).2.2 j hj
  have hrun : s1.run enc b after = ({} : St).run enc b (before ++ .start c :: after) := by
    simp [St.run, List.foldl_append, s1, s0]
  rw [hrun] at hx
  exact tried_down enc b up _ {} (inv_init b) ha (by simp) x (List.mem_of_getElem? hx)
    (by rw [hr]; simp) j hj'

/-- Every dial that reports an error made as many attempts as there are addresses, however the
dials interleave. -/
theorem dial_attempt_count (enc : Header → Bytes) (b : Backend) (ops : List Op) :
    ∀ x ∈ (({} : St).run enc b ops).dials, x.result = some .error →
      x.tried.length = (destOf b x.slot).addresses.length := by
  have key : ∀ (ops : List Op) (s : St), Inv b s →
      (∀ x ∈ s.dials, (x.result = none → (x.tried = [] ∧ x.max = 0 ∨
        0 < x.max ∧ x.max + x.tried.length = (destOf b x.slot).addresses.length)) ∧
        (x.result = some .error → x.tried.length = (destOf b x.slot).addresses.length)) →
      ∀ x ∈ (s.run enc b ops).dials, x.result = some .error →
        x.tried.length = (destOf b x.slot).addresses.length := by
    intro ops
    induction ops with
    | nil => intro s _ h x hx; exact (h x hx).2
    | cons op ops ih =>
      intro s hI h
      apply ih _ (inv_step enc hI op)
      intro x hx
      cases op with
      | start c =>
        simp only [St.step, List.mem_append, List.mem_singleton] at hx
        rcases hx with hx | rfl
        · exact h x hx
        · dsimp only
          constructor
          · intro _; exact Or.inl ⟨rfl, rfl⟩
          · intro he; split at he <;> cases he
      | send j data =>
        simp only [St.step] at hx
        split at hx
        · exact h x hx
        · rename_i y hy
          rcases List.mem_or_eq_of_mem_set hx with hx | rfl
          · exact h x hx
          · obtain ⟨e1, e2, e3, e4, e5⟩ := send_result y data
            rw [e1, e2, e3, e5]
            exact h y (List.mem_of_getElem? hy)
      | attempt j net =>
        simp only [St.step] at hx
        split at hx
        · exact h x hx
        · rename_i y hy
          split at hx
          · exact h x hx
          · rename_i hr
            have hr' : y.result = none := by
              cases hxr : y.result with
              | none => rfl
              | some r => rw [hxr] at hr; simp at hr
            rcases List.mem_or_eq_of_mem_set hx with hx | rfl
            · exact h x hx
            · have hmem := List.mem_of_getElem? hy
              have hpos := hI.live y hmem hr'
              have hn := inv_next hI y.slot hpos
              obtain ⟨t1, t2, t3, t4, t5, t6⟩ := turn_panic enc (destOf b y.slot) (s.next y.slot) y net hn hr'
              have tm := turn_max enc (destOf b y.slot) (s.next y.slot) y net hn hr'
              dsimp only at tm
              constructor
              · intro hnone
                right
                have := tm.1 hnone
                rw [this.1, t2, t3, List.length_append, List.length_singleton]
                rcases (h y hmem).1 hr' with ⟨f1, f2⟩ | ⟨f1, f2⟩
                · rw [f2] at this ⊢
                  simp only [if_true] at this ⊢
                  rw [f1]; simp; omega
                · rw [if_neg (by omega)] at this ⊢
                  omega
              · intro herr
                have := tm.2 herr
                rw [t2, t3, List.length_append, List.length_singleton]
                rcases (h y hmem).1 hr' with ⟨f1, f2⟩ | ⟨f1, f2⟩
                · rw [f2] at this
                  simp only [if_true] at this
                  rw [f1]; simp; omega
                · rw [if_neg (by omega)] at this
                  omega
  exact key ops {} (inv_init b) (by simp)

/-- Non-vacuity: three addresses, position 1 after an earlier dial; all refuse. -/
example : (({} : St).run (fun _ => []) Spec.b3
      [.start {}, .attempt 0 (.connected none), .start {}, .attempt 1 .refused, .attempt 1 .refused,
       .attempt 1 .refused]).dials[1]? =
    some { client := {}, slot := none, tried := [1, 2, 0], result := some .error } := by decide

/-! ## C18 -/

/-- What holds of every dial with respect to the connections it opened. -/
def OutsOK (enc : Header → Bytes) (b : Backend) (x : D) (sent : Bytes) : Prop :=
  if x.result = some .ok then
    ∃ o os, x.outs = o :: os ∧ o.closed = false ∧
      o.written = Spec.header enc (destOf b x.slot) x.client ++ sent ∧ ∀ o' ∈ os, o'.closed = true
  else ∀ o ∈ x.outs, o.closed = true

theorem turn_outs (enc : Header → Bytes) (b : Backend) (next : Nat) (x : D) (net : Net)
    (hx : x.result = none) (h : OutsOK enc b x []) :
    OutsOK enc b (turn enc (destOf b x.slot) next x net).2 [] := by
  have h' : ∀ o ∈ x.outs, o.closed = true := by simpa [OutsOK, hx] using h
  unfold turn failed
  dsimp only
  generalize (if x.max = 0 then (destOf b x.slot).addresses.length else x.max) = m
  split
  · simpa [OutsOK] using h'
  · split
    · split
      · simpa [OutsOK, hx] using h'
      · simpa [OutsOK] using h'
    · split
      · rename_i hq
        simp only [OutsOK, if_true]
        refine ⟨_, _, rfl, rfl, ?_, h'⟩
        unfold Spec.header
        rw [if_neg (by rcases hq with hq | hq <;> simp [hq])]
        rfl
      · rename_i hq
        split
        · simp only [OutsOK, if_true]
          refine ⟨_, _, rfl, rfl, ?_, h'⟩
          simp only [List.append_nil]
          exact headerFor_spec enc _ _ hq
        · split
          · simpa [OutsOK, hx] using h'
          · simpa [OutsOK] using h'

/-- C18. However dials interleave: when a dial has returned a connection, the operations can be
split at the attempt that established it, and what the backend server received on it is the
PROXY header (if the protocol is enabled and the destination is not a QUIC one; nothing
otherwise) followed by exactly the client data forwarded since; every other connection that dial
opened, e.g. one on which writing the header failed, was closed. A dial that did not succeed
leaves none open. -/
theorem header_first (enc : Header → Bytes) (b : Backend) (ops : List Op) (i : Nat) (x : D)
    (hx : (({} : St).run enc b ops).dials[i]? = some x) :
    (x.result = some .ok → ∃ pre net post, ops = pre ++ .attempt i net :: post ∧
      (∀ y, (({} : St).run enc b pre).dials[i]? = some y → y.result = none) ∧
      ∃ o os, x.outs = o :: os ∧ o.closed = false ∧
        o.written = Spec.header enc (destOf b (slotOf b x.client)) x.client ++ Spec.sent i post ∧
        ∀ o' ∈ os, o'.closed = true) ∧
    (x.result ≠ some .ok → ∀ o ∈ x.outs, o.closed = true) := by
  have sentSnoc : ∀ (l : List Op) (op : Op), Spec.sent i (l ++ [op]) =
      Spec.sent i l ++ (match op with | .send j d => if j = i then d else [] | _ => []) := by
    intro l op
    induction l with
    | nil => cases op <;> simp [Spec.sent]
    | cons a l ih => cases a <;> simp [Spec.sent, ih]
  suffices H : ∀ (rev : List Op) (x : D), (({} : St).run enc b rev.reverse).dials[i]? = some x →
      x.slot = slotOf b x.client ∧
      ((x.result = some .ok → ∃ pre net post, rev.reverse = pre ++ .attempt i net :: post ∧
        (∀ y, (({} : St).run enc b pre).dials[i]? = some y → y.result = none) ∧
        OutsOK enc b x (Spec.sent i post)) ∧
      (x.result ≠ some .ok → OutsOK enc b x [])) by
    have := H ops.reverse x (by rw [List.reverse_reverse]; exact hx)
    rw [List.reverse_reverse] at this
    obtain ⟨hs, h1, h2⟩ := this
    constructor
    · intro hr
      obtain ⟨pre, net, post, e, hp, ho⟩ := h1 hr
      refine ⟨pre, net, post, e, hp, ?_⟩
      rw [← hs]
      simpa [OutsOK, hr] using ho
    · intro hr
      simpa [OutsOK, hr] using h2 hr
  intro rev
  induction rev with
  | nil => intro x hx; simp [St.run] at hx
  | cons op rev ih =>
    intro x hx
    rw [List.reverse_cons] at hx ⊢
    have hrun : ({} : St).run enc b (rev.reverse ++ [op]) =
        (({} : St).run enc b rev.reverse).step enc b op := by
      simp [St.run, List.foldl_append]
    rw [hrun] at hx
    generalize hs : ({} : St).run enc b rev.reverse = s at hx ih
    -- extend a split of the shorter sequence
    have ext : ∀ (y : D), (∃ pre net post, rev.reverse = pre ++ .attempt i net :: post ∧
        (∀ y, (({} : St).run enc b pre).dials[i]? = some y → y.result = none) ∧
        OutsOK enc b y (Spec.sent i post)) →
        (match op with | .send j d => if j = i then d else ([] : Bytes) | _ => []) = [] →
        ∃ pre net post, rev.reverse ++ [op] = pre ++ .attempt i net :: post ∧
        (∀ y, (({} : St).run enc b pre).dials[i]? = some y → y.result = none) ∧
        OutsOK enc b y (Spec.sent i post) := by
      rintro y ⟨pre, net, post, e, hp, ho⟩ h0
      refine ⟨pre, net, post ++ [op], by rw [e]; simp, hp, ?_⟩
      rw [sentSnoc, h0, List.append_nil]; exact ho
    cases op with
    | start c =>
      simp only [St.step] at hx
      by_cases hi : i < s.dials.length
      · rw [List.getElem?_append_left hi] at hx
        obtain ⟨e, h1, h2⟩ := ih x hx
        exact ⟨e, fun hr => ext x (h1 hr) rfl, h2⟩
      · rw [List.getElem?_append_right (by omega)] at hx
        have hx' : x =
          { client := c
            slot := slotOf b c
            result := if (destOf b (slotOf b c)).addresses.length = 0 then some Result.noAddresses else none } := by
          have := List.mem_of_getElem? hx
          simpa using this
        subst hx'
        refine ⟨rfl, ?_, ?_⟩
        · intro hr
          dsimp only at hr
          split at hr <;> cases hr
        · intro hr
          simp only [OutsOK, if_neg hr]
          simp
    | send j data =>
      simp only [St.step] at hx
      split at hx
      · obtain ⟨e, h1, h2⟩ := ih x hx
        rename_i hnone
        refine ⟨e, fun hr => ext x (h1 hr) ?_, h2⟩
        have : j ≠ i := by rintro rfl; rw [hnone] at hx; cases hx
        simp [this]
      · rename_i y hy
        by_cases hj : j = i
        · subst hj
          have hlt : j < s.dials.length := (List.getElem?_eq_some_iff.mp hy).1
          simp [hlt] at hx
          subst hx
          obtain ⟨e, h1, h2⟩ := ih y hy
          obtain ⟨e1, e2, e3, e4, e5⟩ := send_result y data
          refine ⟨by rw [e2, e4]; exact e, ?_, ?_⟩
          · intro hr
            rw [e1] at hr
            obtain ⟨pre, net, post, eq, hp, ho⟩ := h1 hr
            refine ⟨pre, net, post ++ [.send j data], by rw [eq]; simp, hp, ?_⟩
            rw [sentSnoc]
            simp only [OutsOK, hr, if_true] at ho
            obtain ⟨o, os, ho1, ho2, ho3, ho4⟩ := ho
            simp only [OutsOK, e1, hr, if_true, e2, e4]
            refine ⟨{ o with written := o.written ++ data }, os, ?_, ho2, ?_, ho4⟩
            · simp [D.send, hr, ho1]
            · simp [ho3]
          · intro hr
            have : y.send data = y := by
              unfold D.send
              rw [if_neg (by rw [← e1]; exact hr)]
            rw [this] at hr ⊢
            exact h2 hr
        · simp only [List.getElem?_set_ne hj] at hx
          obtain ⟨e, h1, h2⟩ := ih x hx
          exact ⟨e, fun hr => ext x (h1 hr) (by simp [hj]), h2⟩
    | attempt j net =>
      simp only [St.step] at hx
      split at hx
      · obtain ⟨e, h1, h2⟩ := ih x hx
        exact ⟨e, fun hr => ext x (h1 hr) rfl, h2⟩
      · rename_i y hy
        split at hx
        · obtain ⟨e, h1, h2⟩ := ih x hx
          exact ⟨e, fun hr => ext x (h1 hr) rfl, h2⟩
        · rename_i hr
          have hr' : y.result = none := by
            cases hxr : y.result with
            | none => rfl
            | some r => rw [hxr] at hr; simp at hr
          by_cases hj : j = i
          · subst hj
            have hlt : j < s.dials.length := (List.getElem?_eq_some_iff.mp hy).1
            simp [hlt] at hx
            obtain ⟨e, h1, h2⟩ := ih y hy
            have ho := h2 (by rw [hr']; simp)
            have hslot : x.slot = y.slot ∧ x.client = y.client := by
              rw [← hx]
              unfold turn failed
              dsimp only
              generalize (if y.max = 0 then (destOf b y.slot).addresses.length else y.max) = m
              split
              · simp
              · split
                · split <;> simp
                · split
                  · simp
                  · split
                    · simp
                    · split <;> simp
            have := turn_outs enc b (s.next y.slot) y net hr' ho
            rw [hx] at this
            refine ⟨by rw [hslot.1, hslot.2]; exact e, ?_, fun _ => this⟩
            intro _
            refine ⟨rev.reverse, net, [], rfl, ?_, by simpa [Spec.sent] using this⟩
            intro z hz
            rw [hs, hy] at hz
            cases hz; exact hr'
          · simp only [List.getElem?_set_ne hj] at hx
            obtain ⟨e, h1, h2⟩ := ih x hx
            exact ⟨e, fun hr => ext x (h1 hr) rfl, h2⟩

/-- Non-vacuity: header write fails on the first server, succeeds on the second one. -/
example : ((({} : St).run (fun h => [UInt8.ofNat h.version, UInt8.ofNat h.tlvs.length]) Spec.b3
      [.start { serverName := "a" }, .attempt 0 (.connected (some 1)), .attempt 0 (.connected none),
       .send 0 [7, 8]]).dials.map (·.outs)) =
    [[{ addr := 1, written := [2, 1, 7, 8] }, { addr := 0, written := [2], closed := true }]] := by decide

/-! ## C36: which addresses are dialed -/

/-- The destination a request asks for: the path override its context names, if the backend has
it, and the backend itself otherwise. -/
def Spec.Wants (b : Backend) (c : Client) (d : Dest) : Prop :=
  (∃ i : Nat, c.overrideId = some (i : Int) ∧ b.overrides[i]? = some d) ∨
  ((∀ i : Nat, c.overrideId = some (i : Int) → b.overrides[i]? = none) ∧ d = b.main)

theorem slotOf_wants (b : Backend) (c : Client) : Spec.Wants b c (destOf b (slotOf b c)) := by
  unfold slotOf
  split
  · rename_i id hid
    split
    · rename_i h
      have hlt : id.toNat < b.overrides.length := by omega
      refine Or.inl ⟨id.toNat, by rw [hid, Int.toNat_of_nonneg h.1], ?_⟩
      simp [destOf, List.getElem?_eq_getElem hlt]
    · rename_i h
      refine Or.inr ⟨?_, rfl⟩
      intro i hi
      rw [hid] at hi
      simp only [Option.some.injEq] at hi
      rw [List.getElem?_eq_none]
      omega
  · rename_i hid
    exact Or.inr ⟨fun i hi => (by rw [hid] at hi; cases hi), rfl⟩

theorem turn_same (enc : Header → Bytes) (d : Dest) (next : Nat) (x : D) (net : Net) :
    (turn enc d next x net).2.slot = x.slot ∧ (turn enc d next x net).2.client = x.client := by
  have hf : ∀ (n m : Nat) (z : D), (failed n m z).2.slot = z.slot ∧
      (failed n m z).2.client = z.client := by
    intro n m z; unfold failed; split <;> exact ⟨rfl, rfl⟩
  unfold turn
  dsimp only
  split
  · exact ⟨rfl, rfl⟩
  · split
    · exact hf _ _ _
    · split
      · exact ⟨rfl, rfl⟩
      · split
        · exact ⟨rfl, rfl⟩
        · exact hf _ _ _

/-- C14, C36. In every history, every dial uses the addresses, mode and PROXY version of the path
override its request was matched to, and those of the backend when there is none. -/
theorem dial_destination (enc : Header → Bytes) (b : Backend) (ops : List Op) :
    ∀ x ∈ (({} : St).run enc b ops).dials, Spec.Wants b x.client (destOf b x.slot) := by
  have key : ∀ (ops : List Op) (s : St), (∀ x ∈ s.dials, x.slot = slotOf b x.client) →
      ∀ x ∈ (s.run enc b ops).dials, x.slot = slotOf b x.client := by
    intro ops
    induction ops with
    | nil => intro s h; exact h
    | cons op ops ih =>
      intro s h
      refine ih (s.step enc b op) ?_
      cases op with
      | start c =>
        intro x hx
        simp only [St.step, List.mem_append, List.mem_singleton] at hx
        rcases hx with hx | hx
        · exact h x hx
        · rw [hx]
      | attempt i net =>
        simp only [St.step]
        split
        · exact h
        · rename_i x hx
          have hxm := h x (List.mem_of_getElem? hx)
          split
          · exact h
          · intro y hy
            rcases List.mem_or_eq_of_mem_set hy with hy | hy
            · exact h y hy
            · have ht := turn_same enc (destOf b x.slot) (s.next x.slot) x net
              rw [hy, ht.1, ht.2]; exact hxm
      | send i data =>
        simp only [St.step]
        split
        · exact h
        · rename_i x hx
          have hxm := h x (List.mem_of_getElem? hx)
          intro y hy
          rcases List.mem_or_eq_of_mem_set hy with hy | hy
          · exact h y hy
          · have ht : (x.send data).slot = x.slot ∧ (x.send data).client = x.client := by
              unfold D.send
              split
              · split <;> exact ⟨rfl, rfl⟩
              · exact ⟨rfl, rfl⟩
            rw [hy, ht.1, ht.2]; exact hxm
  intro x hx
  rw [key ops {} (by simp) x hx]
  exact slotOf_wants b x.client

example : destOf { main := ⟨["m"], "HTTP", 0⟩, overrides := [⟨["o"], "HTTP", 0⟩] }
    (slotOf { main := ⟨["m"], "HTTP", 0⟩, overrides := [⟨["o"], "HTTP", 0⟩] } { overrideId := some 0 })
    = ⟨["o"], "HTTP", 0⟩ := by rfl

end Verif.Dial
