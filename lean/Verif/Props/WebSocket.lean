import Verif.Model.WebSocket

/-!
# C81: WebSocket bridging
-/

namespace Verif.WebSocket

/-- The bytes of the binary messages, in order. -/
def Spec.payload : List Msg → Bytes
  | [] => []
  | m :: t => (if m.binary then m.chunks.flatten else []) ++ Spec.payload t

structure Inv (ms : List Msg) (srv : Bytes) (s : State) : Prop where
  toS : ∃ lost, s.toSrv ++ lost = Spec.payload ms ∧
    (s.inRun = true → lost = s.cur.flatten ++ Spec.payload s.inq) ∧
    (s.failed = false → lost = s.cur.flatten ++ Spec.payload s.inq)
  cli : ∃ lost, s.toCli.flatten ++ lost = srv ∧ (s.outRun = true → lost = s.outq) ∧
    (s.failed = false → lost = s.outq)
  small : ∀ m ∈ s.toCli, 1 ≤ m.length ∧ m.length ≤ 1024
  inEnd : s.inRun = false → s.failed = false → s.cur = [] ∧ s.inq = []
  outEnd : s.outRun = false → s.failed = false → s.outq = []

theorem inv_in {ms : List Msg} {srv : Bytes} {s : State} (i : Inv ms srv s) (n : Nat) :
    Inv ms srv (inStep s n) := by
  unfold inStep
  obtain ⟨l1, h1, h2, h3⟩ := i.toS
  obtain ⟨l2, g1, g2, g3⟩ := i.cli
  by_cases hr : s.inRun = true
  case neg =>
    rw [if_pos (by simpa using hr)]
    exact i
  case pos =>
    have hl := h2 hr
    rw [if_neg (by simp [hr])]
    split
    · refine ⟨⟨l1, h1, fun h => (by cases h), fun h => (by cases h)⟩,
        ⟨l2, g1, g2, fun h => (by cases h)⟩, i.small, fun _ h => (by cases h), fun _ h => (by cases h)⟩
    · cases hc : s.cur with
      | cons c t =>
        dsimp only
        split
        · refine ⟨⟨t.flatten ++ Spec.payload s.inq, ?_, fun _ => rfl, fun _ => rfl⟩,
            ⟨l2, g1, g2, g3⟩, i.small, fun h => ?_, i.outEnd⟩
          · rw [hl, hc] at h1
            simpa using h1
          · have h : s.inRun = false := h
            rw [hr] at h
            cases h
        · refine ⟨⟨c.drop n ++ t.flatten ++ Spec.payload s.inq, ?_, fun h => (by cases h),
            fun h => (by cases h)⟩, ⟨l2, g1, g2, fun h => (by cases h)⟩, i.small,
            fun _ h => (by cases h), fun _ h => (by cases h)⟩
          rw [hl, hc] at h1
          rw [← h1]
          show s.toSrv ++ c.take n ++ (c.drop n ++ t.flatten ++ Spec.payload s.inq) = _
          have e : c.take n ++ (c.drop n ++ (t.flatten ++ Spec.payload s.inq)) =
              c ++ (t.flatten ++ Spec.payload s.inq) := by
            rw [← List.append_assoc, List.take_append_drop]
          simp [e]
      | nil =>
        dsimp only
        cases hq : s.inq with
        | nil =>
          refine ⟨⟨l1, h1, fun h => (by cases h), fun h => ?_⟩, ⟨l2, g1, g2, g3⟩, i.small,
            fun _ _ => ⟨rfl, rfl⟩, i.outEnd⟩
          rw [hl, hc, hq]
        | cons m t =>
          have hp : s.cur.flatten ++ Spec.payload s.inq =
              (if m.binary then m.chunks.flatten else []) ++ Spec.payload t := by
            rw [hc, hq]
            rfl
          dsimp only
          split
          · rename_i hb
            rw [hp, if_pos hb] at hl
            refine ⟨⟨l1, h1, fun _ => hl, fun _ => hl⟩, ⟨l2, g1, g2, g3⟩, i.small, fun h => ?_,
              i.outEnd⟩
            have h : s.inRun = false := h
            rw [hr] at h
            cases h
          · rename_i hb
            rw [hp, if_neg hb] at hl
            have hl : l1 = ([] : List Bytes).flatten ++ Spec.payload t := by rw [hl]; rfl
            refine ⟨⟨l1, h1, fun _ => hl, fun _ => hl⟩, ⟨l2, g1, g2, g3⟩, i.small, fun h => ?_,
              i.outEnd⟩
            have h : s.inRun = false := h
            rw [hr] at h
            cases h

theorem inv_out {ms : List Msg} {srv : Bytes} {s : State} (i : Inv ms srv s) (n : Nat) (eof ok : Bool) :
    Inv ms srv (outStep s n eof ok) := by
  unfold outStep
  obtain ⟨l1, h1, h2, h3⟩ := i.toS
  obtain ⟨l2, g1, g2, g3⟩ := i.cli
  by_cases hr : s.outRun = true
  case neg =>
    rw [if_pos (by simpa using hr)]
    exact i
  case pos =>
    have hl := g2 hr
    rw [if_neg (by simp [hr])]
    split
    · refine ⟨⟨l1, h1, h2, fun h => (by cases h)⟩,
        ⟨l2, g1, fun h => (by cases h), fun h => (by cases h)⟩, i.small, fun _ h => (by cases h),
        fun _ h => (by cases h)⟩
    · cases hq : s.outq with
      | nil =>
        refine ⟨⟨l1, h1, h2, h3⟩, ⟨l2, g1, fun h => (by cases h), fun _ => hl.trans hq⟩, i.small, i.inEnd,
          fun _ _ => rfl⟩
      | cons b t =>
        have hk : 1 ≤ min (min (n + 1) 1024) (b :: t).length := by
          simp only [List.length_cons]
          omega
        have hk' : min (min (n + 1) 1024) (b :: t).length ≤ 1024 := by omega
        have hk'' : min (min (n + 1) 1024) (b :: t).length ≤ (b :: t).length := by omega
        dsimp only
        generalize min (min (n + 1) 1024) (b :: t).length = k at hk hk' hk'' ⊢
        rw [hl, hq] at g1
        split
        · refine ⟨⟨l1, h1, h2, fun h => (by cases h)⟩, ⟨b :: t, g1, fun h => (by cases h),
            fun h => (by cases h)⟩, i.small, fun _ h => (by cases h), fun _ h => (by cases h)⟩
        · have hc : (s.toCli ++ [(b :: t).take k]).flatten ++ (b :: t).drop k = srv := by
            rw [← g1, List.flatten_append, List.append_assoc]
            congr 1
            simp
          have hsmall : ∀ m ∈ s.toCli ++ [(b :: t).take k], 1 ≤ m.length ∧ m.length ≤ 1024 := by
            intro m hm
            rcases List.mem_append.1 hm with hm | hm
            · exact i.small m hm
            · rw [List.mem_singleton.1 hm, List.length_take]
              omega
          split
          · rename_i he
            have he : ((b :: t).drop k) = [] := by
              have := (Bool.and_eq_true_iff.1 he).2
              simpa using this
            exact ⟨⟨l1, h1, h2, h3⟩, ⟨_, hc, fun h => (by cases h), fun _ => rfl⟩, hsmall,
              i.inEnd, fun _ _ => he⟩
          · refine ⟨⟨l1, h1, h2, h3⟩, ⟨_, hc, fun _ => rfl, fun _ => rfl⟩, hsmall, i.inEnd, fun h => ?_⟩
            have h : s.outRun = false := h
            rw [hr] at h
            cases h

theorem inv_step {ms : List Msg} {srv : Bytes} {s : State} (i : Inv ms srv s) (o : Op) :
    Inv ms srv (step s o) := by
  obtain ⟨l1, h1, h2, h3⟩ := i.toS
  obtain ⟨l2, g1, g2, g3⟩ := i.cli
  cases o with
  | inStep n => exact inv_in i n
  | outStep n eof ok => exact inv_out i n eof ok
  | inFail =>
    unfold step
    dsimp only
    split
    · exact ⟨⟨l1, h1, fun h => (by cases h), fun h => (by cases h)⟩, ⟨l2, g1, g2, fun h => (by cases h)⟩,
        i.small, fun _ h => (by cases h), fun _ h => (by cases h)⟩
    · exact i
  | outFail =>
    unfold step
    dsimp only
    split
    · exact ⟨⟨l1, h1, h2, fun h => (by cases h)⟩, ⟨l2, g1, fun h => (by cases h), fun h => (by cases h)⟩,
        i.small, fun _ h => (by cases h), fun _ h => (by cases h)⟩
    · exact i
  | finish =>
    unfold step
    dsimp only
    split
    · exact ⟨⟨l1, h1, h2, h3⟩, ⟨l2, g1, g2, g3⟩, i.small, i.inEnd, i.outEnd⟩
    · exact i
  | idle => exact ⟨⟨l1, h1, h2, h3⟩, ⟨l2, g1, g2, g3⟩, i.small, i.inEnd, i.outEnd⟩

theorem inv_run {ms : List Msg} {srv : Bytes} : ∀ (ops : List Op) {s : State}, Inv ms srv s →
    Inv ms srv (run ops s)
  | [], _, i => i
  | o :: os, _, i => inv_run os (inv_step i o)

theorem inv_init (ms : List Msg) (srv : Bytes) : Inv ms srv (init ms srv) where
  toS := ⟨Spec.payload ms, rfl, fun _ => rfl, fun _ => rfl⟩
  cli := ⟨srv, rfl, fun _ => rfl, fun _ => rfl⟩
  small := fun _ h => by cases h
  inEnd := fun h => by cases h
  outEnd := fun h => by cases h

/-- C81: at any time the server has received a prefix of the concatenation of the client's binary
messages, and the messages sent to the client (of 1 to 1024 bytes) are a prefix of what the server
sent. Nothing is reordered, duplicated, or taken from other messages. -/
theorem ws_prefix (ms : List Msg) (srv : Bytes) (ops : List Op) :
    (run ops (init ms srv)).toSrv <+: Spec.payload ms ∧
    (run ops (init ms srv)).toCli.flatten <+: srv ∧
    ∀ m ∈ (run ops (init ms srv)).toCli, 1 ≤ m.length ∧ m.length ≤ 1024 := by
  have i := inv_run ops (inv_init ms srv)
  obtain ⟨l1, h1, -⟩ := i.toS
  obtain ⟨l2, g1, -⟩ := i.cli
  exact ⟨⟨l1, h1⟩, ⟨l2, g1⟩, i.small⟩

/-- C81: if no read or write failed, a loop that is done has passed on everything. Missing: the end of
one direction ends the other one (`ws_halfclose_violated`). -/
theorem ws_complete_partial (ms : List Msg) (srv : Bytes) (ops : List Op)
    (hf : (run ops (init ms srv)).failed = false) :
    ((run ops (init ms srv)).inRun = false → (run ops (init ms srv)).toSrv = Spec.payload ms) ∧
    ((run ops (init ms srv)).outRun = false → (run ops (init ms srv)).toCli.flatten = srv) := by
  have i := inv_run ops (inv_init ms srv)
  obtain ⟨l1, h1, -, h3⟩ := i.toS
  obtain ⟨l2, g1, -, g3⟩ := i.cli
  constructor
  · intro h
    obtain ⟨a, b⟩ := i.inEnd h hf
    have := h3 hf
    rw [a, b] at this
    rw [this] at h1
    simpa [Spec.payload] using h1
  · intro h
    have := g3 hf
    rw [i.outEnd h hf] at this
    rw [this] at g1
    simpa using g1

/-- C81: a loop that has not failed always makes progress: while both sides are up, every step of the
loop to the server with room to write brings it nearer to its end. -/
def Spec.left (s : State) : Nat :=
  s.cur.length + (s.inq.map fun m => m.chunks.length + 1).sum + (if s.inRun then 1 else 0)

theorem ws_progress (s : State) (n : Nat) (hr : s.inRun = true) (hd : s.down = false)
    (hn : ∀ c ∈ s.cur, c.length ≤ n) : Spec.left (inStep s n) < Spec.left s ∧
      (inStep s n).failed = s.failed := by
  unfold inStep
  rw [if_neg (by simp [hr]), if_neg (by simp [hd])]
  cases hc : s.cur with
  | cons c t =>
    rw [hc] at hn
    dsimp only
    rw [if_pos (hn c List.mem_cons_self)]
    refine ⟨?_, rfl⟩
    simp [Spec.left, hr, hc]
  | nil =>
    dsimp only
    cases hq : s.inq with
    | nil => simp [Spec.left, hc, hq, hr]
    | cons m t =>
      dsimp only
      split
      · refine ⟨?_, rfl⟩
        simp [Spec.left, hr, hc, hq]
      · refine ⟨?_, rfl⟩
        simp [Spec.left, hr, hc, hq]

/-- C81: when the handler returns: once one of the loops is over, or when the connection has been
idle; it does not return while both are running and there is traffic. -/
theorem ws_returns (s : State) (o : Op) :
    (step s o).down = true ↔
      s.down = true ∨ o = .idle ∨ (o = .finish ∧ (s.inRun = false ∨ s.outRun = false)) := by
  cases o with
  | inStep n =>
    have : (inStep s n).down = s.down := by
      unfold inStep
      repeat' split
      all_goals rfl
    simp [step, this]
  | outStep n eof ok =>
    have : (outStep s n eof ok).down = s.down := by
      unfold outStep
      split
      · rfl
      split
      · rfl
      split
      · rfl
      dsimp only
      split
      · rfl
      split <;> rfl
    simp [step, this]
  | inFail =>
    have : (step s .inFail).down = s.down := by unfold step; dsimp only; split <;> rfl
    simp [this]
  | outFail =>
    have : (step s .outFail).down = s.down := by unfold step; dsimp only; split <;> rfl
    simp [this]
  | idle => simp [step]
  | finish =>
    unfold step
    dsimp only
    cases h1 : s.inRun <;> cases h2 : s.outRun <;> simp

/-- C81: after the handler has returned nothing is passed on any more, in either direction, and a
loop ends at its next step. -/
theorem ws_closed (s : State) (hd : s.down = true) (ops : List Op) :
    (run ops s).down = true ∧ (run ops s).toSrv = s.toSrv ∧ (run ops s).toCli = s.toCli ∧
    ((∃ n, Op.inStep n ∈ ops) → (run ops s).inRun = false) ∧
    ((∃ n e k, Op.outStep n e k ∈ ops) → (run ops s).outRun = false) := by
  have one : ∀ (s : State) (o : Op), s.down = true →
      (step s o).down = true ∧ (step s o).toSrv = s.toSrv ∧ (step s o).toCli = s.toCli ∧
      (s.inRun = false → (step s o).inRun = false) ∧ (s.outRun = false → (step s o).outRun = false) ∧
      ((∃ n, o = .inStep n) → (step s o).inRun = false) ∧
      ((∃ n e k, o = .outStep n e k) → (step s o).outRun = false) := by
    intro s o hd
    refine ⟨(ws_returns s o).2 (.inl hd), ?_⟩
    cases o with
    | inStep n =>
      unfold step inStep
      dsimp only
      by_cases hr : s.inRun = true
      · rw [if_neg (by simp [hr]), if_pos hd]
        simp
      · rw [if_pos (by simpa using hr)]
        simpa using hr
    | outStep n e k =>
      unfold step outStep
      dsimp only
      by_cases hr : s.outRun = true
      · rw [if_neg (by simp [hr]), if_pos hd]
        simp
      · rw [if_pos (by simpa using hr)]
        simpa using hr
    | inFail => unfold step; dsimp only; split <;> simp_all
    | outFail => unfold step; dsimp only; split <;> simp_all
    | idle => simp [step]
    | finish => unfold step; dsimp only; split <;> simp_all
  have stay : ∀ (ops : List Op) (s : State), s.down = true →
      (s.inRun = false → (run ops s).inRun = false) ∧ (s.outRun = false → (run ops s).outRun = false) := by
    intro ops
    induction ops with
    | nil => intro s _; exact ⟨id, id⟩
    | cons o os ih =>
      intro s hd
      obtain ⟨h1, _, _, h4, h5, _⟩ := one s o hd
      exact ⟨fun h => (ih _ h1).1 (h4 h), fun h => (ih _ h1).2 (h5 h)⟩
  induction ops generalizing s with
  | nil => exact ⟨hd, rfl, rfl, fun ⟨_, h⟩ => (nomatch h), fun ⟨_, _, _, h⟩ => (nomatch h)⟩
  | cons o os ih =>
    obtain ⟨h1, h2, h3, h4, h5, h6, h7⟩ := one s o hd
    obtain ⟨g1, g2, g3, g4, g5⟩ := ih _ h1
    refine ⟨g1, g2.trans h2, g3.trans h3, ?_, ?_⟩
    · rintro ⟨n, hn⟩
      rcases List.mem_cons.1 hn with hn | hn
      · exact (stay os _ h1).1 (h6 ⟨n, hn.symm⟩)
      · exact g4 ⟨n, hn⟩
    · rintro ⟨n, e, k, hn⟩
      rcases List.mem_cons.1 hn with hn | hn
      · exact (stay os _ h1).2 (h7 ⟨n, e, k, hn.symm⟩)
      · exact g5 ⟨n, e, k, hn⟩

/-- C81: a failure ends its loop, leaves the other one alone, and passes nothing on; a loop that is
over cannot fail. -/
theorem ws_failure (s : State) :
    (step s .inFail).inRun = false ∧ (step s .inFail).outRun = s.outRun ∧
    (step s .inFail).toSrv = s.toSrv ∧ (step s .inFail).toCli = s.toCli ∧
    (step s .inFail).failed = (s.failed || s.inRun) ∧
    (step s .outFail).outRun = false ∧ (step s .outFail).inRun = s.inRun ∧
    (step s .outFail).toSrv = s.toSrv ∧ (step s .outFail).toCli = s.toCli ∧
    (step s .outFail).failed = (s.failed || s.outRun) ∧
    -- a message that cannot be sent; what was read is lost
    ∀ n eof, s.outq ≠ [] → (step s (.outStep n eof false)).outRun = false ∧
      (step s (.outStep n eof false)).inRun = s.inRun ∧
      (step s (.outStep n eof false)).toCli = s.toCli ∧
      (step s (.outStep n eof false)).failed = (s.failed || s.outRun) := by
  have h1 : step s .inFail = if s.inRun then { s with inRun := false, failed := true } else s := rfl
  have h2 : step s .outFail = if s.outRun then { s with outRun := false, failed := true } else s := rfl
  rw [h1, h2]
  refine ⟨?_, ?_, ?_, ?_, ?_, ?_, ?_, ?_, ?_, ?_, ?_⟩
  · split <;> simp_all
  · split <;> rfl
  · split <;> rfl
  · split <;> rfl
  · split <;> simp_all
  · split <;> simp_all
  · split <;> rfl
  · split <;> rfl
  · split <;> rfl
  · split <;> simp_all
  · intro n eof hq
    show (outStep s n eof false).outRun = false ∧ (outStep s n eof false).inRun = _ ∧
      (outStep s n eof false).toCli = _ ∧ (outStep s n eof false).failed = _
    unfold outStep
    cases hr : s.outRun with
    | false => simp [hr]
    | true =>
      rw [if_neg (by simp)]
      split
      · simp
      · cases hq' : s.outq with
        | nil => exact absurd hq' hq
        | cons b t => simp

namespace Ex

/-- Non-vacuity: the client ends first; the handler returns, and the server's answer is not passed
on. -/
example :
    let s := run [.inStep 9, .inStep 9, .finish] (init [] [5, 6])
    s.down = true ∧ s.inRun = false ∧ s.outRun = true ∧ s.failed = false ∧
    (run [.outStep 9 false true] s).toCli = [] ∧ (run [.outStep 9 false true] s).outRun = false := by
  decide +kernel

def ms : List Msg := [⟨true, [[1, 2], [3]]⟩, ⟨false, [[9, 9]]⟩, ⟨true, []⟩, ⟨true, [[4]]⟩]

def ops : List Op :=
  [.inStep 9, .inStep 9, .outStep 1 false true, .inStep 9, .inStep 9, .inStep 9, .outStep 7 true true,
   .inStep 9, .inStep 9, .inStep 9]

example : (run ops (init ms [5, 6, 7])).toSrv = [1, 2, 3, 4] ∧
    (run ops (init ms [5, 6, 7])).toCli = [[5, 6], [7]] ∧
    (run ops (init ms [5, 6, 7])).inRun = false ∧ (run ops (init ms [5, 6, 7])).outRun = false ∧
    (run ops (init ms [5, 6, 7])).failed = false := by decide +kernel

end Ex

/-- C81 fails when one side finishes first: the client closes after its last message, the handler
returns, and what the server still sends is lost although nothing failed before. -/
theorem ws_halfclose_violated : ∃ ms srv ops1 ops2, (run ops1 (init ms srv)).failed = false ∧
    (run ops1 (init ms srv)).outRun = true ∧
    ops2 = [Op.finish, Op.outStep 1023 false true] ∧
    (run ops2 (run ops1 (init ms srv))).outRun = false ∧
    (run ops2 (run ops1 (init ms srv))).toCli.flatten ≠ srv :=
  ⟨[⟨true, [[1]]⟩], [5, 6], [.inStep 9, .inStep 9, .inStep 9], _, by decide +kernel, by decide +kernel,
    rfl, by decide +kernel, by decide +kernel⟩

end Verif.WebSocket
