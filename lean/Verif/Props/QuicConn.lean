import Verif.Model.QuicConn

/-!
# C79, C80: streams and close callback of QUIC connections
-/

namespace Verif.QuicConn

/-! ## C79 -/

/-- The list of streams is right: what is in it is known, and known once. -/
structure Inv (s : State) : Prop where
  nodup : s.streams.Nodup
  opened : ∀ id k, Event.opened id k ∈ s.log → id < s.next
  isOpened : ∀ id, id < s.next → ∃ k, Event.opened id k ∈ s.log
  once : ∀ id k k', Event.opened id k ∈ s.log → Event.opened id k' ∈ s.log → k = k'
  rd : ∀ id, id ∈ s.rd ↔ ∃ w, Event.readEnd id w ∈ s.log
  wr : ∀ id, id ∈ s.wr ↔ ∃ w, Event.writeEnd id w ∈ s.log
  rdlt : ∀ id, id ∈ s.rd → id < s.next
  wrlt : ∀ id, id ∈ s.wr → id < s.next
  rem : ∀ id, id ∈ s.removing → id ∈ s.rd ∧ id ∈ s.wr
  mem : ∀ id, id ∈ s.streams → id < s.next ∧ (id ∈ s.rd → id ∈ s.wr → id ∈ s.removing)
  mem' : ∀ id, id < s.next → ¬ (id ∈ s.rd ∧ id ∈ s.wr) → id ∈ s.streams

theorem inv_markRead {s : State} (i : Inv s) (id : Nat) (w : Why) : Inv (markRead s id w) := by
  unfold markRead
  split
  · rename_i h
    obtain ⟨h1, h2⟩ := h
    refine ⟨i.nodup, ?_, ?_, ?_, ?_, ?_, ?_, i.wrlt, ?_, ?_, ?_⟩
    · intro x k hx
      rcases List.mem_cons.1 hx with hx | hx
      · cases hx
      · exact i.opened x k hx
    · intro x hx
      obtain ⟨k, hk⟩ := i.isOpened x hx
      exact ⟨k, List.mem_cons_of_mem _ hk⟩
    · intro x k k' hk hk'
      rcases List.mem_cons.1 hk with hk | hk
      · cases hk
      · rcases List.mem_cons.1 hk' with hk' | hk'
        · cases hk'
        · exact i.once x k k' hk hk'
    · intro x
      constructor
      · intro hx
        rcases List.mem_cons.1 hx with rfl | hx
        · exact ⟨w, List.mem_cons_self⟩
        · obtain ⟨w', hw⟩ := (i.rd x).1 hx
          exact ⟨w', List.mem_cons_of_mem _ hw⟩
      · rintro ⟨w', hw⟩
        rcases List.mem_cons.1 hw with hw | hw
        · cases hw
          exact List.mem_cons_self
        · exact List.mem_cons_of_mem _ ((i.rd x).2 ⟨w', hw⟩)
    · intro x
      constructor
      · intro hx
        obtain ⟨w', hw⟩ := (i.wr x).1 hx
        exact ⟨w', List.mem_cons_of_mem _ hw⟩
      · rintro ⟨w', hw⟩
        rcases List.mem_cons.1 hw with hw | hw
        · cases hw
        · exact (i.wr x).2 ⟨w', hw⟩
    · intro x hx
      rcases List.mem_cons.1 hx with rfl | hx
      · exact h1
      · exact i.rdlt x hx
    · intro x hx
      dsimp only at hx
      split at hx
      · rename_i hw
        rcases List.mem_cons.1 hx with rfl | hx
        · exact ⟨List.mem_cons_self, hw⟩
        · exact ⟨List.mem_cons_of_mem _ (i.rem x hx).1, (i.rem x hx).2⟩
      · exact ⟨List.mem_cons_of_mem _ (i.rem x hx).1, (i.rem x hx).2⟩
    · intro x hx
      obtain ⟨g1, g2⟩ := i.mem x hx
      refine ⟨g1, ?_⟩
      intro hr hw
      dsimp only at hr hw ⊢
      rcases List.mem_cons.1 hr with rfl | hr
      · rw [if_pos hw]
        exact List.mem_cons_self
      · have := g2 hr hw
        split
        · exact List.mem_cons_of_mem _ this
        · exact this
    · intro x hx hn
      exact i.mem' x hx (fun hb => hn ⟨List.mem_cons_of_mem _ hb.1, hb.2⟩)
  · exact i

theorem inv_markWrite {s : State} (i : Inv s) (id : Nat) (w : Why) : Inv (markWrite s id w) := by
  unfold markWrite
  split
  · rename_i h
    obtain ⟨h1, h2⟩ := h
    refine ⟨i.nodup, ?_, ?_, ?_, ?_, ?_, i.rdlt, ?_, ?_, ?_, ?_⟩
    · intro x k hx
      rcases List.mem_cons.1 hx with hx | hx
      · cases hx
      · exact i.opened x k hx
    · intro x hx
      obtain ⟨k, hk⟩ := i.isOpened x hx
      exact ⟨k, List.mem_cons_of_mem _ hk⟩
    · intro x k k' hk hk'
      rcases List.mem_cons.1 hk with hk | hk
      · cases hk
      · rcases List.mem_cons.1 hk' with hk' | hk'
        · cases hk'
        · exact i.once x k k' hk hk'
    · intro x
      constructor
      · intro hx
        obtain ⟨w', hw⟩ := (i.rd x).1 hx
        exact ⟨w', List.mem_cons_of_mem _ hw⟩
      · rintro ⟨w', hw⟩
        rcases List.mem_cons.1 hw with hw | hw
        · cases hw
        · exact (i.rd x).2 ⟨w', hw⟩
    · intro x
      constructor
      · intro hx
        rcases List.mem_cons.1 hx with rfl | hx
        · exact ⟨w, List.mem_cons_self⟩
        · obtain ⟨w', hw⟩ := (i.wr x).1 hx
          exact ⟨w', List.mem_cons_of_mem _ hw⟩
      · rintro ⟨w', hw⟩
        rcases List.mem_cons.1 hw with hw | hw
        · cases hw
          exact List.mem_cons_self
        · exact List.mem_cons_of_mem _ ((i.wr x).2 ⟨w', hw⟩)
    · intro x hx
      rcases List.mem_cons.1 hx with rfl | hx
      · exact h1
      · exact i.wrlt x hx
    · intro x hx
      dsimp only at hx
      split at hx
      · rename_i hw
        rcases List.mem_cons.1 hx with rfl | hx
        · exact ⟨hw, List.mem_cons_self⟩
        · exact ⟨(i.rem x hx).1, List.mem_cons_of_mem _ (i.rem x hx).2⟩
      · exact ⟨(i.rem x hx).1, List.mem_cons_of_mem _ (i.rem x hx).2⟩
    · intro x hx
      obtain ⟨g1, g2⟩ := i.mem x hx
      refine ⟨g1, ?_⟩
      intro hr hw
      dsimp only at hr hw ⊢
      rcases List.mem_cons.1 hw with rfl | hw
      · rw [if_pos hr]
        exact List.mem_cons_self
      · have := g2 hr hw
        split
        · exact List.mem_cons_of_mem _ this
        · exact this
    · intro x hx hn
      exact i.mem' x hx (fun hb => hn ⟨hb.1, List.mem_cons_of_mem _ hb.2⟩)
  · exact i

theorem inv_step {s : State} (i : Inv s) (o : Op) : Inv (step s o) := by
  cases o with
  | «open» k =>
    have hnew : s.next ∉ s.streams := fun h => Nat.lt_irrefl _ (i.mem _ h).1
    refine ⟨?_, ?_, ?_, ?_, ?_, ?_, ?_, ?_, i.rem, ?_, ?_⟩
    · show (s.streams ++ [s.next]).Nodup
      rw [List.nodup_append]
      refine ⟨i.nodup, by simp, ?_⟩
      intro a ha b hb he
      rw [List.mem_singleton.1 hb] at he
      exact hnew (he ▸ ha)
    · intro x k' hx
      show x < s.next + 1
      rcases List.mem_cons.1 hx with hx | hx
      · cases hx
        omega
      · have := i.opened x k' hx
        omega
    · intro x hx
      have hx : x < s.next + 1 := hx
      by_cases he : x = s.next
      · subst he
        exact ⟨k, List.mem_cons_self⟩
      · obtain ⟨k', hk⟩ := i.isOpened x (by omega)
        exact ⟨k', List.mem_cons_of_mem _ hk⟩
    · intro x k1 k2 h1 h2
      rcases List.mem_cons.1 h1 with h1 | h1 <;> rcases List.mem_cons.1 h2 with h2 | h2
      · cases h1
        cases h2
        rfl
      · cases h1
        exact absurd (i.opened _ _ h2) (Nat.lt_irrefl _)
      · cases h2
        exact absurd (i.opened _ _ h1) (Nat.lt_irrefl _)
      · exact i.once x k1 k2 h1 h2
    · intro x
      refine (i.rd x).trans ?_
      constructor
      · rintro ⟨w, hw⟩
        exact ⟨w, List.mem_cons_of_mem _ hw⟩
      · rintro ⟨w, hw⟩
        rcases List.mem_cons.1 hw with hw | hw
        · cases hw
        · exact ⟨w, hw⟩
    · intro x
      refine (i.wr x).trans ?_
      constructor
      · rintro ⟨w, hw⟩
        exact ⟨w, List.mem_cons_of_mem _ hw⟩
      · rintro ⟨w, hw⟩
        rcases List.mem_cons.1 hw with hw | hw
        · cases hw
        · exact ⟨w, hw⟩
    · intro x hx
      exact Nat.lt_succ_of_lt (i.rdlt x hx)
    · intro x hx
      exact Nat.lt_succ_of_lt (i.wrlt x hx)
    · intro x hx
      rcases List.mem_append.1 hx with hx | hx
      · exact ⟨Nat.lt_succ_of_lt (i.mem x hx).1, (i.mem x hx).2⟩
      · rw [List.mem_singleton.1 hx]
        refine ⟨Nat.lt_succ_self _, fun hr => ?_⟩
        exact absurd (i.rdlt _ hr) (Nat.lt_irrefl _)
    · intro x hx hn
      have hx : x < s.next + 1 := hx
      show x ∈ s.streams ++ [s.next]
      by_cases he : x = s.next
      · simp [he]
      · exact List.mem_append_left _ (i.mem' x (by omega) hn)
  | read id r =>
    cases r with
    | ok => exact i
    | limiter => exact i
    | err w => exact inv_markRead i id w
  | write id r =>
    cases r with
    | ok => exact i
    | limiter => exact i
    | err w => exact inv_markWrite i id w
  | close id => exact inv_markWrite i id .final
  | cancelRead id => exact inv_markRead i id .final
  | cancelWrite id => exact inv_markWrite i id .final
  | remove id =>
    unfold step
    dsimp only
    split
    · rename_i h
      obtain ⟨h1, h2⟩ := i.rem id h
      refine ⟨i.nodup.filter _, i.opened, i.isOpened, i.once, i.rd, i.wr, i.rdlt, i.wrlt, ?_, ?_, ?_⟩
      · intro x hx
        exact i.rem x (List.mem_filter.1 hx).1
      · intro x hx
        obtain ⟨hx, hne⟩ := List.mem_filter.1 hx
        refine ⟨(i.mem x hx).1, fun hr hw => List.mem_filter.2 ⟨(i.mem x hx).2 hr hw, hne⟩⟩
      · intro x hx hn
        refine List.mem_filter.2 ⟨i.mem' x hx hn, ?_⟩
        have : x ≠ id := by
          rintro rfl
          exact hn ⟨h1, h2⟩
        simpa using this
    · exact i

theorem inv_run : ∀ (ops : List Op) {s : State}, Inv s → Inv (run ops s)
  | [], _, i => i
  | o :: os, _, i => inv_run os (inv_step i o)

theorem inv_init : Inv init where
  nodup := List.nodup_nil
  opened := fun _ _ h => by cases h
  isOpened := fun _ h => by cases h
  once := fun _ _ _ h => by cases h
  rd := fun _ => ⟨fun h => (by cases h), fun ⟨_, h⟩ => (by cases h)⟩
  wr := fun _ => ⟨fun h => (by cases h), fun ⟨_, h⟩ => (by cases h)⟩
  rdlt := fun _ h => by cases h
  wrlt := fun _ h => by cases h
  rem := fun _ h => by cases h
  mem := fun _ h => by cases h
  mem' := fun _ h => by cases h

/-- A side is finished: there is no such side, or a call ended it for good. -/
def Spec.recvFinished (log : List Event) (id : Nat) : Prop :=
  Event.opened id .sendOnly ∈ log ∨ Event.readEnd id .final ∈ log

def Spec.sendFinished (log : List Event) (id : Nat) : Prop :=
  Event.opened id .recvOnly ∈ log ∨ Event.writeEnd id .final ∈ log

/-- C79, what the code does: whenever no removal is in progress the list has, each once, the streams
that were opened and for which not both a reading and a writing call ended with an error, a close or a
cancellation. -/
theorem streams_marked (ops : List Op) (hq : (run ops init).removing = []) :
    (run ops init).streams.Nodup ∧
    ∀ id, id ∈ (run ops init).streams ↔
      (∃ k, Event.opened id k ∈ (run ops init).log) ∧
      ¬ ((∃ w, Event.readEnd id w ∈ (run ops init).log) ∧
         (∃ w, Event.writeEnd id w ∈ (run ops init).log)) := by
  have i := inv_run ops inv_init
  refine ⟨i.nodup, fun id => ?_⟩
  rw [← i.rd, ← i.wr]
  constructor
  · intro h
    obtain ⟨h1, h2⟩ := i.mem id h
    refine ⟨i.isOpened id h1, fun hb => ?_⟩
    have := h2 hb.1 hb.2
    rw [hq] at this
    cases this
  · rintro ⟨⟨k, h1⟩, h2⟩
    exact i.mem' id (i.opened id k h1) h2

/-- C79 for bidirectional streams, if no call ended by a deadline: the list has, each once, exactly the
streams whose sides are not both finished. Missing: one-way streams (`recv_only_violated`) and
deadlines (`timeout_violated`). -/
theorem streams_exact_partial (ops : List Op) (hq : (run ops init).removing = [])
    (hk : ∀ id k, Event.opened id k ∈ (run ops init).log → k = .bidi)
    (hr : ∀ id w, Event.readEnd id w ∈ (run ops init).log → w = .final)
    (hw : ∀ id w, Event.writeEnd id w ∈ (run ops init).log → w = .final) :
    (run ops init).streams.Nodup ∧
    ∀ id, id ∈ (run ops init).streams ↔
      (∃ k, Event.opened id k ∈ (run ops init).log) ∧
      ¬ (Spec.recvFinished (run ops init).log id ∧ Spec.sendFinished (run ops init).log id) := by
  obtain ⟨h1, h2⟩ := streams_marked ops hq
  refine ⟨h1, fun id => ?_⟩
  rw [h2 id]
  have e1 : (∃ w, Event.readEnd id w ∈ (run ops init).log) ↔
      Spec.recvFinished (run ops init).log id := by
    constructor
    · rintro ⟨w, h⟩
      exact .inr (hr id w h ▸ h)
    · rintro (h | h)
      · cases hk id _ h
      · exact ⟨_, h⟩
  have e2 : (∃ w, Event.writeEnd id w ∈ (run ops init).log) ↔
      Spec.sendFinished (run ops init).log id := by
    constructor
    · rintro ⟨w, h⟩
      exact .inr (hw id w h ▸ h)
    · rintro (h | h)
      · cases hk id _ h
      · exact ⟨_, h⟩
  rw [e1, e2]

def Ex.ops : List Op :=
  [.open .bidi, .open .bidi, .read 0 .ok, .read 0 (.err .final), .write 1 .ok, .open .bidi,
   .close 0, .close 2, .remove 0, .write 1 .limiter, .close 0, .remove 0]

example : (run Ex.ops init).streams = [1, 2] ∧ (run Ex.ops init).removing = [] ∧
    (run Ex.ops init).log.length = 7 := by decide +kernel

/-- C79 fails: an accepted one-way stream that was read to its end stays in the list. -/
theorem recv_only_violated : ∃ ops id, (run ops init).removing = [] ∧ id ∈ (run ops init).streams ∧
    Spec.recvFinished (run ops init).log id ∧ Spec.sendFinished (run ops init).log id :=
  ⟨[.open .recvOnly, .read 0 .ok, .read 0 (.err .final)], 0, by decide +kernel, by decide +kernel,
    .inr (by decide +kernel), .inl (by decide +kernel)⟩

/-- C79 fails: a stream whose reading call only ran into its deadline is dropped from the list. -/
theorem timeout_violated : ∃ ops id, (run ops init).removing = [] ∧ id ∉ (run ops init).streams ∧
    Event.opened id .bidi ∈ (run ops init).log ∧ ¬ Spec.recvFinished (run ops init).log id := by
  refine ⟨[.open .bidi, .read 0 (.err .timeout), .close 0, .remove 0, .read 0 .ok], 0,
    by decide +kernel, by decide +kernel, by decide +kernel, ?_⟩
  rintro (h | h)
  · revert h
    decide +kernel
  · revert h
    decide +kernel

/-! ## C80 -/

def slotCount (f : Nat) (s : CState) : Nat := if s.slot = some f then 1 else 0

/-- Every callback is somewhere: in the slot, taken, or called; or it was replaced. -/
structure CInv (s : CState) : Prop where
  le : ∀ f, s.calls.count f + s.running.count f + slotCount f s ≤ s.registered.count f
  last : ∀ f t, s.registered = f :: t →
    t.count f = 0 → s.calls.count f + s.running.count f + slotCount f s = 1
  wait : s.slot ≠ none → 0 < s.waiters
  empty : s.registered = [] → s.slot = none ∧ s.running = [] ∧ s.calls = []

theorem take_counts (s : CState) (f : Nat) : (take s).calls = s.calls ∧
    (take s).registered = s.registered ∧ (take s).waiters = s.waiters ∧ (take s).slot = none ∧
    (take s).running.count f + slotCount f (take s) = s.running.count f + slotCount f s := by
  unfold take slotCount
  cases h : s.slot with
  | none => exact ⟨rfl, rfl, rfl, h, by rw [h]⟩
  | some g =>
    refine ⟨rfl, rfl, rfl, rfl, ?_⟩
    dsimp only
    rw [List.count_cons]
    by_cases hg : g = f
    · subst hg; simp
    · simp [hg]

theorem cinv_take {s : CState} (i : CInv s) : CInv (take s) := by
  refine ⟨?_, ?_, ?_, ?_⟩
  · intro f
    obtain ⟨h1, h2, -, -, h5⟩ := take_counts s f
    rw [h1, h2]
    have := i.le f
    omega
  · intro f t ht hn
    obtain ⟨h1, h2, -, -, h5⟩ := take_counts s f
    rw [h2] at ht
    rw [h1]
    have := i.last f t ht hn
    omega
  · intro h
    exact absurd (take_counts s 0).2.2.2.1 h
  · intro h
    rw [(take_counts s 0).2.1] at h
    obtain ⟨h1, h2, h3⟩ := i.empty h
    unfold take
    rw [h1]
    exact ⟨h1, h2, h3⟩

theorem cinv_step {s : CState} (i : CInv s) (o : COp) : CInv (cstep s o) := by
  cases o with
  | onClose f =>
    have hs : ∀ g (w : Nat) (r : List Nat), slotCount g { s with slot := some f, waiters := w, registered := r } =
        if f = g then 1 else 0 := by
      intro g w r
      unfold slotCount
      by_cases h : f = g <;> simp [h]
    refine ⟨?_, ?_, fun _ => Nat.succ_pos _, fun h => by cases h⟩
    · intro g
      show s.calls.count g + s.running.count g + slotCount g { s with slot := some f, waiters := s.waiters + 1, registered := f :: s.registered } ≤ (f :: s.registered).count g
      rw [hs, List.count_cons]
      have := i.le g
      by_cases h : f = g
      · subst h; simp; omega
      · simp [h]; omega
    · intro g t ht hn
      cases ht
      show s.calls.count f + s.running.count f + slotCount f { s with slot := some f, waiters := s.waiters + 1, registered := f :: s.registered } = 1
      rw [hs, if_pos rfl]
      have := i.le f
      omega
  | close => exact cinv_take i
  | call f =>
    unfold cstep
    dsimp only
    split
    · rename_i h
      have hc : ∀ g, (f :: s.calls).count g + (s.running.erase f).count g =
          s.calls.count g + s.running.count g := by
        intro g
        have hpos : 0 < s.running.count f := List.count_pos_iff.2 h
        by_cases hg : f = g
        · subst hg
          rw [List.count_cons_self, List.count_erase_self]
          omega
        · rw [List.count_erase_of_ne (fun h => hg h.symm), List.count_cons]
          simp [hg]
      refine ⟨?_, ?_, i.wait, ?_⟩
      · intro g
        have := i.le g
        have := hc g
        show (f :: s.calls).count g + (s.running.erase f).count g + slotCount g s ≤ _
        show _ ≤ s.registered.count g
        omega
      · intro g t ht hn
        have := i.last g t ht hn
        have := hc g
        show (f :: s.calls).count g + (s.running.erase f).count g + slotCount g s = _
        omega
      · intro he
        have := (i.empty he).2.1
        rw [this] at h
        cases h
    · exact i
  | lost => exact ⟨i.le, i.last, i.wait, i.empty⟩
  | wake =>
    unfold cstep
    dsimp only
    split
    · rename_i h
      refine ⟨?_, ?_, ?_, ?_⟩
      · intro f
        obtain ⟨h1, h2, -, -, h5⟩ := take_counts { s with waiters := s.waiters - 1 } f
        rw [h1, h2]
        have := i.le f
        have e : slotCount f { s with waiters := s.waiters - 1 } = slotCount f s := rfl
        rw [e] at h5
        show s.calls.count f + _ + _ ≤ s.registered.count f
        dsimp only at h5
        omega
      · intro f t ht hn
        obtain ⟨h1, h2, -, -, h5⟩ := take_counts { s with waiters := s.waiters - 1 } f
        rw [h2] at ht
        rw [h1]
        have := i.last f t ht hn
        have e : slotCount f { s with waiters := s.waiters - 1 } = slotCount f s := rfl
        rw [e] at h5
        show s.calls.count f + _ + _ = 1
        dsimp only at h5
        omega
      · intro hs
        exact absurd (take_counts { s with waiters := s.waiters - 1 } 0).2.2.2.1 hs
      · intro he
        rw [(take_counts { s with waiters := s.waiters - 1 } 0).2.1] at he
        obtain ⟨h1, h2, h3⟩ := i.empty he
        have : take { s with waiters := s.waiters - 1 } = { s with waiters := s.waiters - 1 } := by
          unfold take
          dsimp only
          rw [h1]
        rw [this]
        exact ⟨h1, h2, h3⟩
    · exact i

theorem cinv_run : ∀ (ops : List COp) {s : CState}, CInv s → CInv (crun ops s)
  | [], _, i => i
  | o :: os, _, i => cinv_run os (cinv_step i o)

theorem cinv_init : CInv cinit where
  le := fun f => by simp [cinit, slotCount]
  last := fun f t h => by cases h
  wait := fun h => absurd rfl h
  empty := fun _ => ⟨rfl, rfl, rfl⟩

/-- C80: a callback is never called more often than it was registered. -/
theorem callback_at_most (ops : List COp) (f : Nat) :
    (crun ops cinit).calls.count f ≤ (crun ops cinit).registered.count f := by
  have := (cinv_run ops cinv_init).le f
  omega

/-- No goroutine has anything left to do. -/
def Spec.quiet (s : CState) : Prop := ∀ o, (o = .wake ∨ ∃ f, o = .call f) → cstep s o = s

theorem quiet_done {s : CState} (h : Spec.quiet s) (hc : s.ctxDone = true) :
    s.running = [] ∧ s.waiters = 0 := by
  constructor
  · cases hr : s.running with
    | nil => rfl
    | cons f t =>
      have := h (.call f) (.inr ⟨f, rfl⟩)
      unfold cstep at this
      dsimp only at this
      rw [if_pos (by rw [hr]; exact List.mem_cons_self)] at this
      have := congrArg (fun s => s.calls.length) this
      simp at this
  · cases hw : s.waiters with
    | zero => rfl
    | succ n =>
      have := h .wake (.inl rfl)
      unfold cstep at this
      dsimp only at this
      rw [if_pos ⟨hc, by omega⟩] at this
      have := congrArg (fun s => s.waiters) this
      rw [show (take { s with waiters := s.waiters - 1 }).waiters = s.waiters - 1 from
        (take_counts _ 0).2.2.1] at this
      omega

/-- C80: the last callback registered (the proxy registers one) is called exactly once when the
connection is gone and no goroutine has anything left to do, whatever the order of registration, local
closes and closes by the peer. -/
theorem callback_exactly_once (ops : List COp) (f : Nat) (t : List Nat)
    (hreg : (crun ops cinit).registered = f :: t) (hf : f ∉ t)
    (hc : (crun ops cinit).ctxDone = true) (hq : Spec.quiet (crun ops cinit)) :
    (crun ops cinit).calls.count f = 1 := by
  have i := cinv_run ops cinv_init
  obtain ⟨h1, h2⟩ := quiet_done hq hc
  have h3 : (crun ops cinit).slot = none :=
    Classical.byContradiction fun h => by have := i.wait h; omega
  have := i.last f t hreg (List.count_eq_zero.2 hf)
  rw [h1] at this
  unfold slotCount at this
  rw [h3] at this
  simpa using this

/-- What is left to do: every step of a goroutine makes it smaller, so the quiet state is reached. -/
def Spec.work (s : CState) : Nat := 2 * s.waiters + s.running.length + (if s.slot = none then 0 else 1)

theorem work_decreases (s : CState) (o : COp) (ho : o = .wake ∨ ∃ f, o = .call f) (hs : cstep s o ≠ s) :
    Spec.work (cstep s o) < Spec.work s := by
  rcases ho with rfl | ⟨f, rfl⟩
  · unfold cstep at *
    dsimp only at *
    split
    · rename_i h
      unfold take Spec.work
      cases hsl : s.slot with
      | none =>
        simp
        omega
      | some g =>
        simp
        omega
    · rename_i h
      rw [if_neg h] at hs
      exact absurd rfl hs
  · unfold cstep at *
    dsimp only at *
    split
    · rename_i h
      unfold Spec.work
      have : 0 < s.running.length := List.length_pos_of_mem h
      show 2 * s.waiters + (s.running.erase f).length + _ < _
      rw [List.length_erase_of_mem h]
      dsimp only
      omega
    · rename_i h
      rw [if_neg h] at hs
      exact absurd rfl hs

/-- Two local closes race with a close by the peer; the callback is registered late. -/
def Ex.cops : List COp := [.close, .lost, .onClose 7, .close, .wake, .call 7, .close, .call 7]

example : (crun Ex.cops cinit).calls = [7] ∧ (crun Ex.cops cinit).ctxDone = true ∧
    (crun Ex.cops cinit).registered = [7] ∧ (crun Ex.cops cinit).running = [] ∧
    (crun Ex.cops cinit).waiters = 0 := by decide +kernel

/-- A second registration replaces the first callback, which is then never called; the proxy does not
do this. -/
theorem callback_replaced_violated : ∃ ops, (crun ops cinit).ctxDone = true ∧
    (crun ops cinit).running = [] ∧ (crun ops cinit).waiters = 0 ∧
    7 ∈ (crun ops cinit).registered ∧ 7 ∉ (crun ops cinit).calls :=
  ⟨[.onClose 7, .onClose 8, .close, .call 8, .wake, .wake], by decide +kernel⟩

/-- C80: as long as the connection is there and nobody closes it, no callback is called. -/
theorem callback_not_early (ops : List COp) (h1 : COp.close ∉ ops) (h2 : COp.lost ∉ ops) :
    (crun ops cinit).calls = [] := by
  have key : ∀ (ops : List COp) (s : CState), COp.close ∉ ops → COp.lost ∉ ops →
      s.running = [] → s.ctxDone = false → s.calls = [] → (crun ops s).calls = [] := by
    intro ops
    induction ops with
    | nil => intro s _ _ _ _ h; exact h
    | cons o os ih =>
      intro s g1 g2 hr hc hs
      simp only [List.mem_cons, not_or] at g1 g2
      cases o with
      | onClose f => exact ih _ g1.2 g2.2 hr hc hs
      | close => exact absurd rfl g1.1
      | call f =>
        have : cstep s (.call f) = s := by
          unfold cstep; dsimp only; rw [hr, if_neg (by simp)]
        show (crun os (cstep s (.call f))).calls = []
        rw [this]
        exact ih s g1.2 g2.2 hr hc hs
      | lost => exact absurd rfl g2.1
      | wake =>
        have : cstep s .wake = s := by
          unfold cstep; dsimp only; rw [hc, if_neg (by simp)]
        show (crun os (cstep s .wake)).calls = []
        rw [this]
        exact ih s g1.2 g2.2 hr hc hs
  exact key ops cinit h1 h2 rfl rfl rfl

/-- Non-vacuity: a callback is registered, and waits. -/
example : (crun [.onClose 7, .wake, .call 7] cinit).calls = [] ∧ (crun [.onClose 7] cinit).registered = [7] :=
  ⟨callback_not_early _ (by decide) (by decide), rfl⟩

end Verif.QuicConn
