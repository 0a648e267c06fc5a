import Verif.Model.Tally
/-!
# C168: the page with metrics counts every connection under its name, and sizes are right to 5 %
-/
namespace Verif.Tally

namespace Spec

def sumBy (f : Conn → Nat) : List Conn → Nat
  | [] => 0
  | k :: l => f k + sumBy f l

/-- The connection was accepted for this server name. -/
def For (n : Str) (k : Conn) : Bool :=
  decide (k.name = n) && match k.phase with
    | .set _ => true
    | _ => false

/-- The connections accepted for a name, and what they have sent and received by their own counters. -/
def total (l : List Conn) (n : Str) : Entry where
  conns := sumBy (fun k => if For n k then 1 else 0) l
  sent := sumBy (fun k => if For n k then k.sent else 0) l
  recv := sumBy (fun k => if For n k then k.recv else 0) l

def number (s : Str) : Nat := s.foldl (fun a c => 10 * a + (c.toNat - 48)) 0

/-- How a size is read, in tenths of a byte. -/
def read (s : Str) : Option Nat :=
  match s.dropWhile Char.isDigit with
  | ['.', c, ' ', 'G', 'B'] => some ((10 * number (s.takeWhile Char.isDigit) + (c.toNat - 48)) * 1000000000)
  | ['.', c, ' ', 'M', 'B'] => some ((10 * number (s.takeWhile Char.isDigit) + (c.toNat - 48)) * 1000000)
  | ['.', c, ' ', 'K', 'B'] => some ((10 * number (s.takeWhile Char.isDigit) + (c.toNat - 48)) * 1000)
  | [' ', '\u00a0', 'B'] => some (10 * number (s.takeWhile Char.isDigit))
  | _ => none

/-- Rounding to the nearest, ties in any direction. -/
def Nearest (round : Nat → Nat → Nat) : Prop :=
  ∀ p q, 0 < q → 2 * p ≤ (2 * round p q + 1) * q ∧ 2 * round p q * q ≤ 2 * p + q

end Spec
open Spec (sumBy For total)

/-! ## Sums and maps -/

theorem sum_set {f : Conn → Nat} {l : List Conn} {c : Nat} {k k' : Conn} (h : l[c]? = some k) :
    sumBy f (l.set c k') + f k = sumBy f l + f k' := by
  induction l generalizing c with
  | nil => cases h
  | cons x l ih =>
    cases c with
    | zero =>
      cases h
      simp only [List.set_cons_zero, sumBy]
      omega
    | succ c =>
      have := ih (c := c) h
      simp only [List.set_cons_succ, sumBy]
      omega

theorem sum_append (f : Conn → Nat) (l : List Conn) (k : Conn) : sumBy f (l ++ [k]) = sumBy f l + f k := by
  induction l with
  | nil => simp [sumBy]
  | cons x l ih => simp only [List.cons_append, sumBy, ih]; omega

theorem sum_zero {f : Conn → Nat} {l : List Conn} (h : ∀ k ∈ l, f k = 0) : sumBy f l = 0 := by
  induction l with
  | nil => rfl
  | cons x l ih => simp only [sumBy, h x List.mem_cons_self, ih fun k hk => h k (List.mem_cons_of_mem _ hk)]

theorem find_snoc (m : List (Str × Nat)) (n x : Str) (i : Nat) :
    find (m ++ [(n, i)]) x = (find m x).or (if n = x then some i else none) := by
  unfold find
  rw [List.find?_append]
  cases m.find? (fun p => decide (p.1 = x)) with
  | some p => rfl
  | none =>
    by_cases h : n = x
    · simp [List.find?, h]
    · simp [List.find?, h]

theorem find_mem {m : List (Str × Nat)} {n : Str} {i : Nat} (h : find m n = some i) : (n, i) ∈ m := by
  unfold find at h
  obtain ⟨p, hp, rfl⟩ := Option.map_eq_some_iff.1 h
  have h1 := List.find?_some hp
  have h2 := List.mem_of_find?_eq_some hp
  have : p.1 = n := by simpa using h1
  rw [← this]
  exact h2

theorem find_none {m : List (Str × Nat)} {n : Str} (h : find m n = none) : ∀ p ∈ m, p.1 ≠ n := by
  unfold find at h
  rw [Option.map_eq_none_iff, List.find?_eq_none] at h
  intro p hp e
  exact h p hp (by simpa using e)

theorem find_of_mem {m : List (Str × Nat)} (hn : (m.map (·.1)).Nodup) {p : Str × Nat} (hp : p ∈ m) : find m p.1 = some p.2 := by
  induction m with
  | nil => cases hp
  | cons q m ih =>
    rw [List.map_cons, List.nodup_cons] at hn
    rcases List.mem_cons.1 hp with rfl | hp
    · simp [find]
    · have hne : q.1 ≠ p.1 := fun e => hn.1 (e ▸ List.mem_map_of_mem hp)
      have := ih hn.2 hp
      unfold find at this ⊢
      rw [List.find?_cons_of_neg (by simpa using hne)]
      exact this

/-! ## The invariant -/

structure Inv (s : St) : Prop where
  at_entry : ∀ k ∈ s.conns, ∀ i, k.phase = .set i → find s.map k.name = some i
  totals : ∀ n i, find s.map n = some i → s.heap[i]? = some (total s.conns n)
  apart : ∀ n m i, find s.map n = some i → find s.map m = some i → n = m
  nodup : (s.map.map (·.1)).Nodup
  some_conn : ∀ n i, find s.map n = some i → 0 < (total s.conns n).conns
  fresh : ∀ k ∈ s.conns, k.phase = .new ∨ k.phase = .missed → k.sent = 0 ∧ k.recv = 0

theorem for_new {n : Str} {k : Conn} (h : ∀ i, k.phase ≠ .set i) : For n k = false := by
  unfold For
  cases hp : k.phase with
  | set i => exact absurd hp (h i)
  | _ => simp

theorem for_other {n : Str} {k : Conn} (h : k.name ≠ n) : For n k = false := by
  unfold For
  simp [h]

theorem for_set {k : Conn} {i : Nat} (h : k.phase = .set i) : For k.name k = true := by
  unfold For
  simp [h]

theorem total_quiet {l : List Conn} {c : Nat} {k k' : Conn} {n : Str} (hc : l[c]? = some k) (f1 : For n k = false)
    (f2 : For n k' = false) : total (l.set c k') n = total l n := by
  have a := sum_set (k' := k') (f := fun k => if For n k then 1 else 0) hc
  have b := sum_set (k' := k') (f := fun k => if For n k then k.sent else 0) hc
  have d := sum_set (k' := k') (f := fun k => if For n k then k.recv else 0) hc
  simp only [f1, f2, Bool.false_eq_true, if_false, Nat.add_zero] at a b d
  unfold total
  rw [a, b, d]

/-- A change of a connection that is counted neither before nor after. -/
theorem inv_quiet {s : St} (h : Inv s) {c : Nat} {k k' : Conn} (hc : s.conns[c]? = some k) (h1 : ∀ i, k.phase ≠ .set i)
    (h2 : ∀ i, k'.phase ≠ .set i) (hf : k'.phase = .new ∨ k'.phase = .missed → k'.sent = 0 ∧ k'.recv = 0) :
    Inv { s with conns := s.conns.set c k' } := by
  have ht : ∀ n, total (s.conns.set c k') n = total s.conns n := fun n => total_quiet hc (for_new h1) (for_new h2)
  refine ⟨?_, fun n i hi => by rw [ht]; exact h.totals n i hi, h.apart, h.nodup,
    fun n i hi => by rw [ht]; exact h.some_conn n i hi, ?_⟩
  · intro x hx i hi
    rcases List.mem_or_eq_of_mem_set hx with hx | rfl
    · exact h.at_entry x hx i hi
    · exact absurd hi (h2 i)
  · intro x hx hi
    rcases List.mem_or_eq_of_mem_set hx with hx | rfl
    · exact h.fresh x hx hi
    · exact hf hi

/-- A change of a connection and of its entry. -/
theorem inv_change {s : St} {c : Nat} {k k' : Conn} {i : Nat} {g : Entry → Entry} (hc : s.conns[c]? = some k)
    (hn : k'.name = k.name) (hp : k'.phase = .set i) (hi : find s.map k.name = some i)
    (hg : total (s.conns.set c k') k.name = g (total s.conns k.name)) (hpos : 0 < (g (total s.conns k.name)).conns)
    (at_entry : ∀ k ∈ s.conns, ∀ i, k.phase = .set i → find s.map k.name = some i)
    (totals : ∀ n i, find s.map n = some i → s.heap[i]? = some (total s.conns n))
    (apart : ∀ n m i, find s.map n = some i → find s.map m = some i → n = m) (nodup : (s.map.map (·.1)).Nodup)
    (some_conn : ∀ n i, find s.map n = some i → n ≠ k.name → 0 < (total s.conns n).conns)
    (fresh : ∀ k ∈ s.conns, k.phase = .new ∨ k.phase = .missed → k.sent = 0 ∧ k.recv = 0) :
    Inv { s with heap := s.heap.modify i g, conns := s.conns.set c k' } := by
  have other : ∀ n, n ≠ k.name → total (s.conns.set c k') n = total s.conns n := fun n hne =>
    total_quiet hc (for_other (Ne.symm hne)) (for_other (by rw [hn]; exact Ne.symm hne))
  refine ⟨?_, ?_, apart, nodup, ?_, ?_⟩
  · intro x hx j hj
    rcases List.mem_or_eq_of_mem_set hx with hx | rfl
    · exact at_entry x hx j hj
    · rw [hp] at hj
      cases hj
      show find s.map x.name = _
      rw [hn]
      exact hi
  · intro n j hj
    show (s.heap.modify i g)[j]? = some (total (s.conns.set c k') n)
    rw [List.getElem?_modify]
    by_cases hnk : n = k.name
    · subst hnk
      have e : i = j := Option.some.inj (hi.symm.trans hj)
      subst e
      rw [totals _ _ hi, hg]
      simp
    · have hne : i ≠ j := fun e => hnk (apart _ _ _ (e ▸ hj) hi)
      rw [totals _ _ hj, other n hnk]
      simp [hne]
  · intro n j hj
    show 0 < (total (s.conns.set c k') n).conns
    by_cases hnk : n = k.name
    · subst hnk
      rw [hg]
      exact hpos
    · rw [other n hnk]
      exact some_conn n j hj hnk
  · intro x hx hi
    rcases List.mem_or_eq_of_mem_set hx with hx | rfl
    · exact fresh x hx hi
    · rw [hp] at hi
      rcases hi with h | h <;> cases h

/-- Taking the counters of an entry. -/
theorem total_use {l : List Conn} {c : Nat} {k : Conn} (i : Nat) (hc : l[c]? = some k) (h1 : ∀ i, k.phase ≠ .set i)
    (h0 : k.sent = 0 ∧ k.recv = 0) : total (l.set c { k with phase := .set i }) k.name =
      { (total l k.name) with conns := (total l k.name).conns + 1 } := by
  have f1 := for_new (n := k.name) h1
  have key : ∀ k', For k.name k' = true → k'.sent = 0 → k'.recv = 0 →
      total (l.set c k') k.name = { (total l k.name) with conns := (total l k.name).conns + 1 } := by
    intro k' f2 hs hr
    have a := sum_set (k' := k') (f := fun x => if For k.name x then 1 else 0) hc
    have b := sum_set (k' := k') (f := fun x => if For k.name x then x.sent else 0) hc
    have d := sum_set (k' := k') (f := fun x => if For k.name x then x.recv else 0) hc
    simp only [f1, f2, Bool.false_eq_true, if_false, Nat.add_zero, if_true, hs, hr] at a b d
    unfold total
    rw [a, b, d]
  exact key _ (for_set (k := { k with phase := .set i }) rfl) h0.1 h0.2

theorem inv_use {s : St} (h : Inv s) {c : Nat} {k : Conn} {i : Nat} (hc : s.conns[c]? = some k)
    (h1 : k.phase = .new ∨ k.phase = .missed) (hi : find s.map k.name = some i) : Inv (s.use c k i) := by
  have hm := List.mem_of_getElem? hc
  have hs : ∀ i, k.phase ≠ .set i := by
    intro i e
    rw [e] at h1
    rcases h1 with h | h <;> cases h
  exact inv_change hc rfl rfl hi (total_use i hc hs (h.fresh k hm h1)) (Nat.succ_pos _) h.at_entry h.totals h.apart h.nodup
    (fun n i hi _ => h.some_conn n i hi) h.fresh

theorem inv_make {s : St} (h : Inv s) {c : Nat} {k : Conn} (hc : s.conns[c]? = some k)
    (h1 : k.phase = .new ∨ k.phase = .missed) (hf : find s.map k.name = none) :
    Inv (({ s with heap := s.heap ++ [{}], map := s.map ++ [(k.name, s.heap.length)] } : St).use c k s.heap.length) := by
  have hm := List.mem_of_getElem? hc
  have hs : ∀ i, k.phase ≠ .set i := by
    intro i e
    rw [e] at h1
    rcases h1 with h | h <;> cases h
  have hk : find (s.map ++ [(k.name, s.heap.length)]) k.name = some s.heap.length := by
    rw [find_snoc, hf, if_pos rfl]
    rfl
  have ho : ∀ n, n ≠ k.name → find (s.map ++ [(k.name, s.heap.length)]) n = find s.map n := by
    intro n hn
    rw [find_snoc, if_neg (Ne.symm hn)]
    cases find s.map n <;> rfl
  have hlt : ∀ n i, find s.map n = some i → i < s.heap.length := fun n i hi => (List.getElem?_eq_some_iff.1 (h.totals n i hi)).1
  have h0 : total s.conns k.name = {} := by
    have hF : ∀ x ∈ s.conns, For k.name x = false := by
      intro x hx
      by_cases hn : x.name = k.name
      · apply for_new
        intro i e
        have := h.at_entry x hx i e
        rw [hn, hf] at this
        cases this
      · exact for_other hn
    unfold total
    rw [sum_zero fun x hx => by simp [hF x hx], sum_zero fun x hx => by simp [hF x hx], sum_zero fun x hx => by simp [hF x hx]]
  refine inv_change (s := { s with heap := s.heap ++ [{}], map := s.map ++ [(k.name, s.heap.length)] }) hc rfl rfl hk
    (total_use _ hc hs (h.fresh k hm h1)) (Nat.succ_pos _) ?_ ?_ ?_ ?_ ?_ h.fresh
  · intro x hx i hi
    have := h.at_entry x hx i hi
    show find (s.map ++ [(k.name, s.heap.length)]) x.name = some i
    rw [find_snoc, this]
    rfl
  · intro n i hi
    show (s.heap ++ [({} : Entry)])[i]? = some (total s.conns n)
    by_cases hn : n = k.name
    · subst hn
      have e : s.heap.length = i := Option.some.inj (hk.symm.trans hi)
      rw [← e, h0]
      simp
    · have hi' : find s.map n = some i := (ho n hn).symm.trans hi
      rw [List.getElem?_append_left (hlt _ _ hi')]
      exact h.totals n i hi'
  · intro n m i hn hm
    by_cases e1 : n = k.name
    · by_cases e2 : m = k.name
      · rw [e1, e2]
      · have hi' : find s.map m = some i := (ho m e2).symm.trans hm
        have hh : s.heap.length = i := by
          rw [e1] at hn
          exact Option.some.inj (hk.symm.trans hn)
        exact absurd (hlt _ _ hi') (by omega)
    · have hi' : find s.map n = some i := (ho n e1).symm.trans hn
      by_cases e2 : m = k.name
      · have hh : s.heap.length = i := by
          rw [e2] at hm
          exact Option.some.inj (hk.symm.trans hm)
        exact absurd (hlt _ _ hi') (by omega)
      · exact h.apart n m i hi' ((ho m e2).symm.trans hm)
  · show ((s.map ++ [(k.name, s.heap.length)]).map (·.1)).Nodup
    rw [List.map_append, List.nodup_append]
    refine ⟨h.nodup, by simp, ?_⟩
    intro a ha b hb
    obtain ⟨p, hp, rfl⟩ := List.mem_map.1 ha
    have : b = k.name := by simpa using hb
    rw [this]
    exact find_none hf p hp
  · intro n i hi hn
    exact h.some_conn n i ((ho n hn).symm.trans hi)

theorem inv_count {s : St} (h : Inv s) {c : Nat} {k : Conn} (hc : s.conns[c]? = some k) (snd rcv : Nat) :
    Inv (s.count c k snd rcv) := by
  unfold St.count
  have hm := List.mem_of_getElem? hc
  cases hp : k.phase with
  | set i =>
    have hi := h.at_entry k hm i hp
    have f1 : For k.name k = true := for_set hp
    refine inv_change hc rfl rfl hi ?_ (h.some_conn _ _ hi) h.at_entry h.totals h.apart h.nodup
      (fun n i hi _ => h.some_conn n i hi) h.fresh
    have key : ∀ k', For k.name k' = true → k'.sent = k.sent + snd → k'.recv = k.recv + rcv →
        total (s.conns.set c k') k.name = { (total s.conns k.name) with
          sent := (total s.conns k.name).sent + snd, recv := (total s.conns k.name).recv + rcv } := by
      intro k' f2 hs hr
      have a := sum_set (k' := k') (f := fun x => if For k.name x then 1 else 0) hc
      have b := sum_set (k' := k') (f := fun x => if For k.name x then x.sent else 0) hc
      have d := sum_set (k' := k') (f := fun x => if For k.name x then x.recv else 0) hc
      simp only [f1, f2, if_true, hs, hr] at a b d
      unfold total
      simp only [Entry.mk.injEq]
      refine ⟨Nat.add_right_cancel a, ?_, ?_⟩
      · exact Nat.add_right_cancel (b.trans (by omega : _ = _ + snd + k.sent))
      · exact Nat.add_right_cancel (d.trans (by omega : _ = _ + rcv + k.recv))
    exact key _ (for_set (k := { k with phase := .set i, sent := k.sent + snd, recv := k.recv + rcv }) rfl) rfl rfl
  | refused =>
    exact inv_quiet h hc (by rw [hp]; intro i e; cases e) (fun i e => by cases e)
      (fun e => by rcases e with e | e <;> cases e)
  | new => exact h
  | missed => exact h

theorem inv_step {s : St} (h : Inv s) (e : Ev) : Inv (s.step e) := by
  cases e with
  | arrive n =>
    have ht : ∀ m, total (s.conns ++ [{ name := n }]) m = total s.conns m := by
      intro m
      have f : For m { name := n } = false := for_new fun i e => by cases e
      unfold total
      rw [sum_append, sum_append, sum_append, f]
      rfl
    refine ⟨?_, fun m i hi => ?_, h.apart, h.nodup, fun m i hi => ?_, ?_⟩
    · intro k hk i hi
      rcases List.mem_append.1 hk with hk | hk
      · exact h.at_entry k hk i hi
      · rw [List.mem_singleton.1 hk] at hi
        cases hi
    · show s.heap[i]? = some (total (s.conns ++ [{ name := n }]) m)
      rw [ht]
      exact h.totals m i hi
    · show 0 < (total (s.conns ++ [{ name := n }]) m).conns
      rw [ht]
      exact h.some_conn m i hi
    · intro k hk hi
      rcases List.mem_append.1 hk with hk | hk
      · exact h.fresh k hk hi
      · rw [List.mem_singleton.1 hk]
        exact ⟨rfl, rfl⟩
  | refuse c =>
    unfold St.step
    dsimp only
    split
    · rename_i k hc
      split <;> rename_i hp
      · exact inv_quiet h hc (by rw [hp]; intro i e; cases e) (fun i e => by cases e) (fun e => by rcases e with e | e <;> cases e)
      · exact h
    · exact h
  | enter c =>
    unfold St.step
    dsimp only
    split
    · rename_i k hc
      have hm := List.mem_of_getElem? hc
      split <;> rename_i hp
      · unfold St.look
        split <;> rename_i hf
        · exact inv_use h hc (.inl hp) hf
        · exact inv_quiet h hc (by rw [hp]; intro i e; cases e) (fun i e => by cases e) (fun _ => h.fresh k hm (.inl hp))
      · unfold St.make
        split <;> rename_i hf
        · exact inv_use h hc (.inr hp) hf
        · exact inv_make h hc (.inr hp) hf
      · exact h
    · exact h
  | sent c n =>
    unfold St.step
    dsimp only
    split
    · rename_i k hc
      exact inv_count h hc n 0
    · exact h
  | received c n =>
    unfold St.step
    dsimp only
    split
    · rename_i k hc
      exact inv_count h hc 0 n
    · exact h

theorem inv_init : Inv {} := by
  refine ⟨?_, ?_, ?_, ?_, ?_, ?_⟩
  · intro k hk; cases hk
  · intro n i hi; cases hi
  · intro n m i hi; cases hi
  · exact List.nodup_nil
  · intro n i hi; cases hi
  · intro k hk; cases hk

theorem inv_run (evs : List Ev) : Inv (run evs) := by
  unfold run
  suffices ∀ s, Inv s → Inv (evs.foldl St.step s) from this _ inv_init
  induction evs with
  | nil => exact fun _ h => h
  | cons e evs ih => exact fun s h => ih _ (inv_step h e)

/-! ## C168: the rows -/

theorem put_mem {t : List (Str × Entry)} {k : Str} {e : Entry} (h : ∀ p ∈ t, p.1 ≠ k) : put t k e = t ++ [(k, e)] := by
  unfold put
  rw [List.filter_eq_self.2 fun p hp => by simpa using h p hp]

theorem rows (uni : Str → Str) (f : Nat → Entry) (m : List (Str × Nat)) (t : List (Str × Entry))
    (hn : (m.map (·.1)).Nodup) (hu : ∀ p ∈ m, ∀ q ∈ m, uni p.1 = uni q.1 → p.1 = q.1)
    (ht : ∀ r ∈ t, ∀ p ∈ m, r.1 ≠ uni p.1) :
    m.foldl (fun t p => put t (uni p.1) (f p.2)) t = t ++ m.map fun p => (uni p.1, f p.2) := by
  induction m generalizing t with
  | nil => simp
  | cons p m ih =>
    rw [List.map_cons, List.nodup_cons] at hn
    rw [List.foldl_cons, put_mem fun r hr => ht r hr p List.mem_cons_self, ih _ hn.2
      (fun a ha b hb => hu a (List.mem_cons_of_mem _ ha) b (List.mem_cons_of_mem _ hb))]
    · simp
    · intro r hr q hq
      rcases List.mem_append.1 hr with hr | hr
      · exact ht r hr q (List.mem_cons_of_mem _ hq)
      · rw [List.mem_singleton.1 hr]
        intro e
        have := hu p List.mem_cons_self q (List.mem_cons_of_mem _ hq) e
        exact hn.1 (this ▸ List.mem_map_of_mem hq)

/-- C168. Whatever the order in which connections arrive, register and transfer data — also when several are the first for a
name at once — the page has one row for each server name that connections were accepted for. It shows how many they were, and
the sum of what they have sent and received. -/
theorem page_counts (uni : Str → Str) (evs : List Ev)
    (hu : ∀ k ∈ (run evs).conns, ∀ k' ∈ (run evs).conns, uni k.name = uni k'.name → k.name = k'.name) :
    (∀ n, 0 < (total (run evs).conns n).conns → (uni n, total (run evs).conns n) ∈ (run evs).page uni) ∧
    (∀ r ∈ (run evs).page uni, ∃ n, 0 < (total (run evs).conns n).conns ∧ r = (uni n, total (run evs).conns n)) ∧
    (((run evs).page uni).map (·.1)).Nodup := by
  generalize hs : run evs = s at hu ⊢
  have h : Inv s := hs ▸ inv_run evs
  have named : ∀ n, 0 < (total s.conns n).conns → ∃ k ∈ s.conns, k.name = n ∧ ∃ i, k.phase = .set i := by
    intro n hp
    apply Classical.byContradiction
    intro hno
    have : (total s.conns n).conns = 0 := by
      refine sum_zero fun k hk => ?_
      by_cases e : k.name = n
      · rw [for_new fun i hi => hno ⟨k, hk, e, i, hi⟩]
        rfl
      · rw [for_other e]
        rfl
    omega
  have conn_of : ∀ p ∈ s.map, ∃ k ∈ s.conns, k.name = p.1 := by
    intro p hp
    obtain ⟨k, hk, e, -⟩ := named p.1 (h.some_conn _ _ (find_of_mem h.nodup hp))
    exact ⟨k, hk, e⟩
  have hu' : ∀ p ∈ s.map, ∀ q ∈ s.map, uni p.1 = uni q.1 → p.1 = q.1 := by
    intro p hp q hq e
    obtain ⟨k, hk, e1⟩ := conn_of p hp
    obtain ⟨k', hk', e2⟩ := conn_of q hq
    rw [← e1, ← e2] at e ⊢
    exact hu k hk k' hk' e
  have hpage : s.page uni = s.map.map fun p => (uni p.1, s.heap.getD p.2 {}) := by
    unfold St.page
    rw [rows uni (fun i => s.heap.getD i {}) s.map [] h.nodup hu' (fun r hr => by cases hr), List.nil_append]
  have hval : ∀ p ∈ s.map, s.heap.getD p.2 {} = total s.conns p.1 := by
    intro p hp
    rw [List.getD_eq_getElem?_getD, h.totals _ _ (find_of_mem h.nodup hp)]
    rfl
  rw [hpage]
  refine ⟨?_, ?_, ?_⟩
  · intro n hp
    obtain ⟨k, hk, e, i, hi⟩ := named n hp
    have hf := h.at_entry k hk i hi
    rw [e] at hf
    have := find_mem hf
    refine List.mem_map.2 ⟨(n, i), this, ?_⟩
    rw [hval _ this]
  · intro r hr
    obtain ⟨p, hp, rfl⟩ := List.mem_map.1 hr
    exact ⟨p.1, h.some_conn _ _ (find_of_mem h.nodup hp), by rw [hval p hp]⟩
  · rw [List.map_map]
    have : ∀ {l : List (Str × Nat)}, (l.map (·.1)).Nodup → (∀ p ∈ l, ∀ q ∈ l, uni p.1 = uni q.1 → p.1 = q.1) →
        (l.map ((·.1) ∘ fun p => (uni p.1, s.heap.getD p.2 {}))).Nodup := by
      intro l
      induction l with
      | nil => intros; exact List.nodup_nil
      | cons p l ih =>
        intro hn hu
        rw [List.map_cons, List.nodup_cons] at hn ⊢
        refine ⟨?_, ih hn.2 fun a ha b hb => hu a (List.mem_cons_of_mem _ ha) b (List.mem_cons_of_mem _ hb)⟩
        intro hm
        obtain ⟨q, hq, e⟩ := List.mem_map.1 hm
        have := hu q (List.mem_cons_of_mem _ hq) p List.mem_cons_self e
        exact hn.1 (this ▸ List.mem_map_of_mem hq)
    exact this h.nodup hu'

theorem run_snoc (evs : List Ev) (e : Ev) : run (evs ++ [e]) = (run evs).step e := by
  unfold run
  rw [List.foldl_append]
  rfl

theorem total_count {s : St} {c : Nat} {k : Conn} {i : Nat} (hc : s.conns[c]? = some k) (hp : k.phase = .set i) (snd rcv : Nat) :
    total (s.count c k snd rcv).conns k.name = { (total s.conns k.name) with
      sent := (total s.conns k.name).sent + snd, recv := (total s.conns k.name).recv + rcv } := by
  have f1 : For k.name k = true := for_set hp
  have key : ∀ k', For k.name k' = true → k'.sent = k.sent + snd → k'.recv = k.recv + rcv →
      total (s.conns.set c k') k.name = { (total s.conns k.name) with
        sent := (total s.conns k.name).sent + snd, recv := (total s.conns k.name).recv + rcv } := by
    intro k' f2 hs hr
    have a := sum_set (k' := k') (f := fun x => if For k.name x then 1 else 0) hc
    have b := sum_set (k' := k') (f := fun x => if For k.name x then x.sent else 0) hc
    have d := sum_set (k' := k') (f := fun x => if For k.name x then x.recv else 0) hc
    simp only [f1, f2, if_true, hs, hr] at a b d
    unfold total
    simp only [Entry.mk.injEq]
    refine ⟨Nat.add_right_cancel a, ?_, ?_⟩
    · exact Nat.add_right_cancel (b.trans (by omega : _ = _ + snd + k.sent))
    · exact Nat.add_right_cancel (d.trans (by omega : _ = _ + rcv + k.recv))
  unfold St.count
  rw [hp]
  exact key _ (for_set (k := { k with phase := .set i, sent := k.sent + snd, recv := k.recv + rcv }) rfl) rfl rfl

/-- C168. Each byte that an accepted connection transfers is in the sums for its name. -/
theorem bytes_counted (evs : List Ev) (c n : Nat) (k : Conn) (i : Nat) (hc : (run evs).conns[c]? = some k) (hp : k.phase = .set i) :
    total (run (evs ++ [.sent c n])).conns k.name =
      { (total (run evs).conns k.name) with sent := (total (run evs).conns k.name).sent + n } ∧
    total (run (evs ++ [.received c n])).conns k.name =
      { (total (run evs).conns k.name) with recv := (total (run evs).conns k.name).recv + n } := by
  rw [run_snoc, run_snoc]
  have h1 := total_count hc hp n 0
  have h2 := total_count hc hp 0 n
  unfold St.step
  dsimp only
  rw [hc]
  exact ⟨h1, h2⟩

/-- C168. A connection that goes through `setCounters` is accepted after its second section at the latest. -/
theorem sections (evs : List Ev) (c : Nat) (k : Conn) (hc : (run evs).conns[c]? = some k) :
    (k.phase = .new → ∃ k', (run (evs ++ [.enter c])).conns[c]? = some k' ∧ k'.name = k.name ∧
      (k'.phase = .missed ∨ ∃ i, k'.phase = .set i)) ∧
    (k.phase = .missed → ∃ k', (run (evs ++ [.enter c])).conns[c]? = some k' ∧ k'.name = k.name ∧ ∃ i, k'.phase = .set i) := by
  rw [run_snoc]
  generalize run evs = s at hc
  have hlt := (List.getElem?_eq_some_iff.1 hc).1
  have hset : ∀ k', (s.conns.set c k')[c]? = some k' := fun k' => List.getElem?_set_self hlt
  unfold St.step
  dsimp only
  rw [hc]
  dsimp only
  refine ⟨fun hp => ?_, fun hp => ?_⟩
  · rw [hp]
    dsimp only
    unfold St.look
    split
    · exact ⟨_, hset _, rfl, .inr ⟨_, rfl⟩⟩
    · exact ⟨_, hset _, rfl, .inl rfl⟩
  · rw [hp]
    dsimp only
    unfold St.make
    split
    · exact ⟨_, hset _, rfl, _, rfl⟩
    · exact ⟨_, hset _, rfl, _, rfl⟩

/-- Two connections are the first for a name, and both find no entry. -/
def exRun : List Ev := [.arrive ['a'], .arrive ['a'], .arrive ['b'], .enter 0, .enter 1, .refuse 2, .sent 2 7, .enter 1,
  .received 1 300, .enter 0, .sent 0 20, .sent 1 5]

example : (run exRun).page id = [(['a'], ⟨2, 25, 300⟩)] := by decide

/-! ## C168: the sizes -/

theorem digit_facts : ∀ n, n < 10 → (digit n).isDigit = true ∧ (digit n).toNat - 48 = n := by decide

theorem dec_digits (n : Nat) : ∀ c ∈ dec n, c.isDigit = true := by
  induction n using Nat.strongRecOn with
  | ind n ih =>
    unfold dec
    split <;> rename_i h
    · intro c hc
      rw [List.mem_singleton.1 hc]
      exact (digit_facts n h).1
    · intro c hc
      rcases List.mem_append.1 hc with hc | hc
      · exact ih _ (by omega) c hc
      · rw [List.mem_singleton.1 hc]
        exact (digit_facts _ (Nat.mod_lt _ (by decide))).1

theorem dec_number (n : Nat) : Spec.number (dec n) = n := by
  induction n using Nat.strongRecOn with
  | ind n ih =>
    unfold dec
    split <;> rename_i h
    · simp [Spec.number, (digit_facts n h).2]
    · have := ih (n / 10) (by omega)
      unfold Spec.number at this ⊢
      rw [List.foldl_append, this]
      simp only [List.foldl_cons, List.foldl_nil, (digit_facts _ (Nat.mod_lt n (by decide : 0 < 10))).2]
      omega

theorem span_digits {a : Str} (ha : ∀ x ∈ a, x.isDigit = true) {c : Char} (hc : c.isDigit = false) (b : Str) :
    (a ++ c :: b).takeWhile Char.isDigit = a ∧ (a ++ c :: b).dropWhile Char.isDigit = c :: b := by
  induction a with
  | nil => simp [hc]
  | cons x a ih =>
    have := ih fun y hy => ha y (List.mem_cons_of_mem _ hy)
    simp only [List.cons_append, List.takeWhile_cons, List.dropWhile_cons, ha x List.mem_cons_self, if_true]
    exact ⟨by rw [this.1], this.2⟩

theorem read_whole (n : Nat) : Spec.read (dec n ++ [' ', '\u00a0', 'B']) = some (10 * n) := by
  have := span_digits (dec_digits n) (c := ' ') (by decide) ['\u00a0', 'B']
  unfold Spec.read
  rw [this.1, this.2, dec_number]
  rfl

theorem read_tenths (r : Nat) : Spec.read (tenths r ++ " GB".toList) = some (r * 1000000000) ∧
    Spec.read (tenths r ++ " MB".toList) = some (r * 1000000) ∧ Spec.read (tenths r ++ " KB".toList) = some (r * 1000) := by
  have hd := (digit_facts _ (Nat.mod_lt r (by decide : 0 < 10))).2
  have hr : 10 * (r / 10) + r % 10 = r := by omega
  have key : ∀ u : Str, (tenths r ++ u).takeWhile Char.isDigit = dec (r / 10) ∧
      (tenths r ++ u).dropWhile Char.isDigit = '.' :: digit (r % 10) :: u := by
    intro u
    have := span_digits (dec_digits (r / 10)) (c := '.') (by decide) (digit (r % 10) :: u)
    unfold tenths
    rw [List.append_assoc]
    exact this
  refine ⟨?_, ?_, ?_⟩
  · have := key " GB".toList
    unfold Spec.read
    rw [this.1, this.2]
    show some ((10 * Spec.number (dec (r / 10)) + ((digit (r % 10)).toNat - 48)) * 1000000000) = _
    rw [dec_number, hd, hr]
  · have := key " MB".toList
    unfold Spec.read
    rw [this.1, this.2]
    show some ((10 * Spec.number (dec (r / 10)) + ((digit (r % 10)).toNat - 48)) * 1000000) = _
    rw [dec_number, hd, hr]
  · have := key " KB".toList
    unfold Spec.read
    rw [this.1, this.2]
    show some ((10 * Spec.number (dec (r / 10)) + ((digit (r % 10)).toNat - 48)) * 1000) = _
    rw [dec_number, hd, hr]

/-- The text as it is read: the unit and the number of tenths of it. -/
theorem shown (round : Nat → Nat → Nat) (a d : Nat) :
    (1000000000 * d < a ∧ Spec.read (formatSize round a d) = some (round (10 * a) (1000000000 * d) * 1000000000)) ∨
    (1000000 * d < a ∧ a ≤ 1000000000 * d ∧
      Spec.read (formatSize round a d) = some (round (10 * a) (1000000 * d) * 1000000)) ∨
    (1000 * d < a ∧ a ≤ 1000000 * d ∧ Spec.read (formatSize round a d) = some (round (10 * a) (1000 * d) * 1000)) ∨
    (a ≤ 1000 * d ∧ Spec.read (formatSize round a d) = some (10 * (a / d))) := by
  unfold formatSize
  split <;> rename_i h1
  · exact .inl ⟨h1, (read_tenths _).1⟩
  split <;> rename_i h2
  · exact .inr (.inl ⟨h2, by omega, (read_tenths _).2.1⟩)
  split <;> rename_i h3
  · exact .inr (.inr (.inl ⟨h3, by omega, (read_tenths _).2.2⟩))
  · exact .inr (.inr (.inr ⟨by omega, read_whole _⟩))

theorem unit_close {r a d u : Nat} (h1 : 2 * (10 * a) ≤ (2 * r + 1) * (u * d)) (h2 : 2 * r * (u * d) ≤ 2 * (10 * a) + u * d)
    (hu : u * d < a) : 20 * (r * u * d) ≤ 21 * (10 * a) ∧ 19 * (10 * a) ≤ 20 * (r * u * d) := by
  have e : r * u * d = r * (u * d) := Nat.mul_assoc _ _ _
  rw [e]
  generalize u * d = x at h1 h2 hu
  have e1 : (2 * r + 1) * x = 2 * (r * x) + x := by rw [Nat.add_mul, Nat.mul_assoc, Nat.one_mul]
  have e2 : 2 * r * x = 2 * (r * x) := Nat.mul_assoc _ _ _
  rw [e1] at h1
  rw [e2] at h2
  generalize r * x = y at h1 h2
  omega

/-- C168. A size above 1000 bytes is shown with an error of at most 5 %. At or below it is cut to whole bytes. -/
theorem size_close (round : Nat → Nat → Nat) (hr : Spec.Nearest round) (a d : Nat) (hd : 0 < d) :
    ∃ v, Spec.read (formatSize round a d) = some v ∧
      (1000 * d < a → 20 * (v * d) ≤ 21 * (10 * a) ∧ 19 * (10 * a) ≤ 20 * (v * d)) ∧
      (a ≤ 1000 * d → v * d ≤ 10 * a ∧ 10 * a < (v + 10) * d) := by
  rcases shown round a d with ⟨h, e⟩ | ⟨h, h', e⟩ | ⟨h, h', e⟩ | ⟨h, e⟩
  · have := hr (10 * a) (1000000000 * d) (by omega)
    exact ⟨_, e, fun _ => unit_close this.1 this.2 h, fun h' => absurd h' (by omega)⟩
  · have := hr (10 * a) (1000000 * d) (by omega)
    exact ⟨_, e, fun _ => unit_close this.1 this.2 h, fun h' => absurd h' (by omega)⟩
  · have := hr (10 * a) (1000 * d) (by omega)
    exact ⟨_, e, fun _ => unit_close this.1 this.2 h, fun h' => absurd h' (by omega)⟩
  · refine ⟨_, e, fun h' => absurd h' (by omega), fun _ => ?_⟩
    have h1 := Nat.div_mul_le_self a d
    have h2 := Nat.lt_div_mul_add (a := a) hd
    rw [Nat.add_mul, Nat.mul_assoc]
    omega

/-- C168. A larger size is never shown as a smaller one, across the units. -/
theorem size_order (round : Nat → Nat → Nat) (hr : Spec.Nearest round) (a b : Nat) (h : a ≤ b) :
    ∃ v w, Spec.read (formatSize round a 1) = some v ∧ Spec.read (formatSize round b 1) = some w ∧ v ≤ w := by
  have near : ∀ a u, 0 < u → 2 * (10 * a) ≤ 2 * (round (10 * a) (u * 1) * u) + u ∧
      2 * (round (10 * a) (u * 1) * u) ≤ 2 * (10 * a) + u := by
    intro a u hu
    have := hr (10 * a) (u * 1) (by omega)
    generalize round (10 * a) (u * 1) = r at this
    rw [Nat.mul_one, Nat.add_mul, Nat.one_mul, Nat.mul_assoc] at this
    exact this
  have mono : ∀ a b u, 0 < u → a ≤ b → a ≠ b → round (10 * a) (u * 1) ≤ round (10 * b) (u * 1) := by
    intro a b u hu hab hne
    have h1 := (near a u hu).2
    have h2 := (near b u hu).1
    apply Nat.le_of_not_lt
    intro hlt
    have h3 : (round (10 * b) (u * 1) + 1) * u ≤ round (10 * a) (u * 1) * u := Nat.mul_le_mul_right u hlt
    rw [Nat.add_mul, Nat.one_mul] at h3
    omega
  by_cases hab : a = b
  · subst hab
    obtain ⟨v, e, -⟩ := size_close round hr a 1 (by decide)
    exact ⟨v, v, e, e, Nat.le_refl _⟩
  have m9 := mono a b 1000000000 (by decide) h hab
  have m6 := mono a b 1000000 (by decide) h hab
  have m3 := mono a b 1000 (by decide) h hab
  have a9 := near a 1000000000 (by decide)
  have a6 := near a 1000000 (by decide)
  have a3 := near a 1000 (by decide)
  have b9 := near b 1000000000 (by decide)
  have b6 := near b 1000000 (by decide)
  have b3 := near b 1000 (by decide)
  rcases shown round a 1 with ⟨ha, e⟩ | ⟨ha, ha', e⟩ | ⟨ha, ha', e⟩ | ⟨ha, e⟩ <;>
  rcases shown round b 1 with ⟨hb, f⟩ | ⟨hb, hb', f⟩ | ⟨hb, hb', f⟩ | ⟨hb, f⟩ <;>
  refine ⟨_, _, e, f, ?_⟩ <;> clear e f mono near hr <;>
  (try rw [Nat.div_one]) <;> (try rw [Nat.div_one]) <;> omega

/-- The rounding of exact halves upwards is one of those allowed. -/
def halfUp (p q : Nat) : Nat := (2 * p + q) / (2 * q)

theorem halfUp_nearest : Spec.Nearest halfUp := by
  intro p q hq
  unfold halfUp
  have h1 := Nat.div_mul_le_self (2 * p + q) (2 * q)
  have h2 := Nat.lt_div_mul_add (a := 2 * p + q) (show 0 < 2 * q by omega)
  generalize (2 * p + q) / (2 * q) = r at h1 h2 ⊢
  have e : r * (2 * q) = 2 * r * q := by rw [← Nat.mul_assoc, Nat.mul_comm r 2]
  rw [e] at h1 h2
  rw [Nat.add_mul, Nat.one_mul]
  omega

example : formatSize halfUp 1234567 1 = "1.2 MB".toList ∧ formatSize halfUp 1000000 1 = "1000.0 KB".toList ∧
    formatSize halfUp 999 2 = "499 \u00a0B".toList := by decide +kernel

end Verif.Tally
