import Verif.Model.Relay
/-
C119: an orderly end means that everything arrived. C120: when one direction ends, the other one ends within the
time for half-closed connections, and that time runs only then.
-/
namespace Verif.Relay

/-! ## Specification -/

/-- What the peer at the other end of direction `w` sees is what the peer at this end did: an orderly end only
after one, and then all the data. -/
def Spec.Faithful (s : St) (w : Which) : Prop :=
  (s.out w).ended = some .orderly → (s.inn w).fin = true ∧ (s.out w).written = (s.inn w).sent

/-- Nobody broke anything off, and no deadline passed. -/
def Spec.Undisturbed (x : Side) : Prop := x.reset = false ∧ x.stop = false ∧ x.lost = false ∧ x.expired = false

/-- The relay has nothing to do. -/
def Spec.Quiet (c : Cfg) (s : St) : Prop := ∀ w n, s.step c (.read w n) = s ∧ s.step c (.write w n) = s

def Spec.Done (s : St) (w : Which) : Prop := ∃ e, s.dir w = .returned e

/-! ## Helpers -/

@[simp] theorem flip_flip (w : Which) : w.flip.flip = w := by cases w <;> rfl
theorem flip_ne (w : Which) : w.flip ≠ w := by cases w <;> simp [Which.flip]
theorem ne_flip (w : Which) : w ≠ w.flip := by cases w <;> simp [Which.flip]
theorem eq_or_flip (w w' : Which) : w' = w ∨ w' = w.flip := by cases w <;> cases w' <;> simp [Which.flip]

@[simp] theorem inn_flip (s : St) (w : Which) : s.inn w.flip = s.out w := rfl
@[simp] theorem out_flip (s : St) (w : Which) : s.out w.flip = s.inn w := by unfold St.out St.inn; rw [flip_flip]
@[simp] theorem inn_set (s : St) (w : Which) (i o : Side) (d : Dir) : (s.set w i o d).inn w = i := by
  simp [St.set, St.inn]
@[simp] theorem out_set (s : St) (w : Which) (i o : Side) (d : Dir) : (s.set w i o d).out w = o := by
  simp [St.set, St.out, flip_ne]
@[simp] theorem dir_set (s : St) (w : Which) (i o : Side) (d : Dir) : (s.set w i o d).dir w = d := by
  simp [St.set]
@[simp] theorem dir_set_flip (s : St) (w : Which) (i o : Side) (d : Dir) : (s.set w i o d).dir w.flip = s.dir w.flip := by
  simp [St.set, flip_ne]
theorem inn_set_flip (s : St) (w : Which) (i o : Side) (d : Dir) : (s.set w.flip i o d).inn w = o := by
  simp [St.set, St.inn, ne_flip]
theorem out_set_flip (s : St) (w : Which) (i o : Side) (d : Dir) : (s.set w.flip i o d).out w = i := by
  simp [St.set, St.out]
theorem dir_set_flip' (s : St) (w : Which) (i o : Side) (d : Dir) : (s.set w.flip i o d).dir w = s.dir w := by
  simp [St.set, ne_flip]

/-- The fields that closing does not touch. -/
structure Same (a b : Side) : Prop where
  link : b.link = a.link
  sent : b.sent = a.sent
  fin : b.fin = a.fin
  reset : b.reset = a.reset
  stop : b.stop = a.stop
  lost : b.lost = a.lost
  expired : b.expired = a.expired
  taken : b.taken = a.taken
  written : b.written = a.written

theorem Same.rfl' (a : Side) : Same a a := ⟨rfl, rfl, rfl, rfl, rfl, rfl, rfl, rfl, rfl⟩

theorem Same.trans {a b c : Side} (h : Same a b) (h' : Same b c) : Same a c :=
  ⟨h'.link.trans h.link, h'.sent.trans h.sent, h'.fin.trans h.fin, h'.reset.trans h.reset, h'.stop.trans h.stop,
   h'.lost.trans h.lost, h'.expired.trans h.expired, h'.taken.trans h.taken, h'.written.trans h.written⟩

theorem close_same (a : Side) : Same a a.close := by
  unfold Side.close Side.endAs
  split <;> exact ⟨rfl, rfl, rfl, rfl, rfl, rfl, rfl, rfl, rfl⟩

theorem closeWrite_same {a b : Side} (h : a.closeWrite = some b) : Same a b := by
  unfold Side.closeWrite Side.endAs at h
  split at h
  · split at h
    · cases h
    · cases h; exact ⟨rfl, rfl, rfl, rfl, rfl, rfl, rfl, rfl, rfl⟩
  · split at h
    · cases h
    · cases h; exact ⟨rfl, rfl, rfl, rfl, rfl, rfl, rfl, rfl, rfl⟩
  · split at h
    · cases h
    · cases h; exact ⟨rfl, rfl, rfl, rfl, rfl, rfl, rfl, rfl, rfl⟩
  · split at h
    · cases h
    · cases h; exact ⟨rfl, rfl, rfl, rfl, rfl, rfl, rfl, rfl, rfl⟩
  · cases h; exact Same.rfl' _

theorem closeRead_same {a b : Side} (h : a.closeRead = some b) : Same a b := by
  unfold Side.closeRead at h
  split at h
  · split at h
    · cases h
    · cases h; exact ⟨rfl, rfl, rfl, rfl, rfl, rfl, rfl, rfl, rfl⟩
  all_goals cases h; exact ⟨rfl, rfl, rfl, rfl, rfl, rfl, rfl, rfl, rfl⟩

theorem setDeadline_same (a : Side) : Same a a.setDeadline := by
  unfold Side.setDeadline
  split <;> exact ⟨rfl, rfl, rfl, rfl, rfl, rfl, rfl, rfl, rfl⟩

theorem finish_same (c : Bool) (i o : Side) (e : Bool) :
    Same i (finishSides c i o e).1 ∧ Same o (finishSides c i o e).2 := by
  unfold finishSides
  split
  · exact ⟨close_same _, close_same _⟩
  · split
    · exact ⟨close_same _, close_same _⟩
    · rename_i o' ho
      split
      · exact ⟨close_same _, (closeWrite_same ho).trans (close_same _)⟩
      · rename_i i' hi
        exact ⟨closeRead_same hi, (closeWrite_same ho).trans (setDeadline_same _)⟩

/-! ## The invariant -/

theorem take_append_chunk (l : Bytes) (t n : Nat) :
    l.take (t + ((l.drop t).take n).length) = l.take t ++ (l.drop t).take n := by
  rw [List.length_take, List.take_add]
  congr 1
  by_cases h : n ≤ (l.drop t).length
  · rw [Nat.min_eq_left h]
  · rw [Nat.min_eq_right (by omega), List.take_length, List.take_of_length_le (by omega)]

/-- The links that occur together, seen from direction `w`: both can be used both ways, or both one way only. -/
def Spec.Pair (i o : Link) : Prop := i ≠ .send ∧ o ≠ .recv ∧ (i = .recv → o = .send)

/-- What holds of direction `w`. -/
structure Inv (c : Cfg) (w : Which) (s : St) : Prop where
  pair : Spec.Pair (s.inn w).link (s.out w).link
  copying : ∀ buf, s.dir w = .copying buf → (s.inn w).sent.take (s.inn w).taken = (s.out w).written ++ buf
  bound : (s.inn w).taken ≤ (s.inn w).sent.length
  prefixed : (s.out w).written <+: (s.inn w).sent
  complete : s.dir w = .returned false → (s.inn w).fin = true ∧ (s.out w).written = (s.inn w).sent
  nothing : (s.out w).link = .send → (s.out w).sent = [] ∧ ∀ b, s.dir w.flip = .copying b → b = []
  timer : (s.out w).deadline = true → s.dir w = .returned false
  tick : ∀ w', (s.side w').expired = true → (s.side w').deadline = true
  clean : c.closeWhenDone w.flip = false → Spec.Undisturbed (s.inn w) → Spec.Undisturbed (s.out w) →
    (∀ b, s.dir w = .copying b → (s.out w).ended = none ∧ (s.out w).closed = false ∧ (s.inn w).rclosed = false ∧
      (s.inn w).closed = false) ∧
    (∀ b b', s.dir w = .copying b → s.dir w.flip = .copying b' → (s.inn w).ended = none ∧ (s.out w).rclosed = false) ∧
    (∀ e, s.dir w = .returned e → e = false) ∧
    (s.dir w = .returned false → c.closeWhenDone w = false ∨ (s.out w).link ≠ .tcp → (s.out w).ended = some .orderly)

theorem inv_init (c : Cfg) (w : Which) (cl sv : Link) (h : Spec.Pair ((init cl sv).inn w).link ((init cl sv).out w).link) :
    Inv c w (init cl sv) where
  pair := h
  copying buf hb := by cases hb; rfl
  bound := Nat.le_refl _
  prefixed := List.nil_prefix
  complete h := by cases h
  nothing _ := ⟨rfl, fun b hb => by cases hb; rfl⟩
  timer h := by cases h
  tick _ h := by cases h
  clean _ _ _ := ⟨fun _ _ => ⟨rfl, rfl, rfl, rfl⟩, fun _ _ _ _ => ⟨rfl, rfl⟩, (by intro e he; cases he), (by intro h; cases h)⟩

/-- What the peers and the clock may change. -/
structure Grows (a b : Side) : Prop where
  link : b.link = a.link
  sent : a.sent <+: b.sent
  ended : b.ended = a.ended
  closed : b.closed = a.closed
  rclosed : b.rclosed = a.rclosed
  deadline : b.deadline = a.deadline
  taken : b.taken = a.taken
  written : b.written = a.written
  fin : a.fin = true → b.fin = true ∧ b.sent = a.sent
  mute : a.link = .send → b.sent = a.sent
  tick : b.expired = true → a.expired = true ∨ a.deadline = true
  calm : Spec.Undisturbed b → Spec.Undisturbed a

theorem Grows.rfl' (a : Side) : Grows a a :=
  ⟨rfl, List.prefix_refl _, rfl, rfl, rfl, rfl, rfl, rfl, fun h => ⟨h, rfl⟩, fun _ => rfl, .inl, id⟩

theorem take_of_prefix {a b : Bytes} (h : a <+: b) {n : Nat} (hn : n ≤ a.length) : b.take n = a.take n := by
  obtain ⟨r, rfl⟩ := h
  rw [List.take_append_of_le_length hn]

theorem inv_grows {c : Cfg} {w : Which} {s : St} (h : Inv c w s) (f : Which → Side → Side)
    (hf : ∀ w', Grows (s.side w') (f w' (s.side w'))) :
    Inv c w { s with side := fun w' => f w' (s.side w') } := by
  have hi := hf w
  have ho := hf w.flip
  refine ⟨?_, ?_, ?_, ?_, ?_, ?_, ?_, ?_, ?_⟩
  · have := h.pair
    unfold St.inn St.out at this ⊢
    dsimp only
    rw [hi.link, ho.link]; exact this
  · intro buf hb
    have := h.copying buf hb
    unfold St.inn St.out at this ⊢
    dsimp only
    rw [hi.taken, ho.written, take_of_prefix (n := (s.side w).taken) hi.sent h.bound]; exact this
  · have := h.bound
    unfold St.inn at this ⊢
    dsimp only
    rw [hi.taken]
    exact Nat.le_trans this hi.sent.length_le
  · have := h.prefixed
    unfold St.inn St.out at this ⊢
    dsimp only
    rw [ho.written]
    exact this.trans hi.sent
  · intro hd
    obtain ⟨h1, h2⟩ := h.complete hd
    unfold St.inn at h1
    unfold St.inn St.out at h2 ⊢
    dsimp only
    obtain ⟨h3, h4⟩ := hi.fin h1
    rw [ho.written, h4]
    exact ⟨h3, h2⟩
  · intro hl
    have hl' : (s.out w).link = .send := by
      unfold St.out at hl ⊢
      dsimp only at hl
      rw [ho.link] at hl; exact hl
    obtain ⟨h1, h2⟩ := h.nothing hl'
    refine ⟨?_, h2⟩
    unfold St.out at h1 hl' ⊢
    dsimp only
    rw [ho.mute hl']; exact h1
  · intro hd
    refine h.timer ?_
    unfold St.out at hd ⊢
    dsimp only at hd
    rw [ho.deadline] at hd; exact hd
  · intro w' he
    dsimp only at he ⊢
    rw [(hf w').deadline]
    rcases (hf w').tick he with h' | h'
    · exact h.tick w' h'
    · exact h'
  · intro hc u1 u2
    obtain ⟨a, b, e, d⟩ := h.clean hc (hi.calm u1) (ho.calm u2)
    unfold St.inn St.out at a b ⊢
    unfold St.out at d
    dsimp only
    rw [ho.ended, ho.closed, ho.rclosed, ho.link, hi.ended, hi.closed, hi.rclosed]
    exact ⟨a, b, e, d⟩

theorem onSide_grows {c : Cfg} {w : Which} {s : St} (h : Inv c w s) (w' : Which) (f : Side → Side)
    (hf : Grows (s.side w') (f (s.side w'))) : Inv c w (s.onSide w' f) := by
  have := inv_grows h (fun w'' x => if w'' = w' then f x else x) (by
    intro w''
    split
    · rename_i he; rw [he]; exact hf
    · exact Grows.rfl' _)
  exact this

theorem calm_readErr {x : Side} (hu : Spec.Undisturbed x) (h1 : x.closed = false) (h2 : x.rclosed = false) :
    x.readErr = false := by
  obtain ⟨a, b, c, d⟩ := hu
  unfold Side.readErr
  split
  · rfl
  · simp [a, c, d, h1, h2]

theorem calm_writeErr {x : Side} (hu : Spec.Undisturbed x) (h1 : x.ended = none) (h2 : x.link ≠ .recv) :
    x.writeErr = false := by
  obtain ⟨a, b, c, d⟩ := hu
  unfold Side.writeErr
  split
  · contradiction
  · simp [b, c, h1]

theorem calm_closeWrite {x : Side} (hu : Spec.Undisturbed x) (h1 : x.closed = false) :
    ∃ y, x.closeWrite = some y ∧ y.closed = false ∧ y.rclosed = x.rclosed ∧ y.link = x.link ∧ y.lost = false ∧
      (x.link ≠ .recv → y.ended = x.ended.or (some .orderly)) := by
  obtain ⟨a, b, c, d⟩ := hu
  unfold Side.closeWrite Side.endAs
  split <;> rename_i hl <;> simp [b, c, h1, hl]

theorem calm_closeRead {x : Side} (hu : x.lost = false) (h1 : x.closed = false) :
    ∃ y, x.closeRead = some y ∧ y.closed = false ∧ y.ended = x.ended ∧ y.deadline = x.deadline := by
  unfold Side.closeRead
  split <;> simp [hu, h1]

theorem setDeadline_fields (x : Side) : x.setDeadline.ended = x.ended ∧ x.setDeadline.closed = x.closed ∧
    x.setDeadline.rclosed = x.rclosed := by
  unfold Side.setDeadline
  split <;> exact ⟨rfl, rfl, rfl⟩

theorem close_ended {x : Side} (hu : Spec.Undisturbed x) (h1 : x.ended = none) (hl : x.link ≠ .recv) (hl' : x.link ≠ .tcp) :
    x.close.ended = some .orderly := by
  obtain ⟨a, b, c, d⟩ := hu
  unfold Side.close Side.endAs
  split <;> rename_i hx <;> simp_all

theorem close_deadline (x : Side) : x.close.deadline = x.deadline := by
  unfold Side.close Side.endAs
  split <;> rfl

theorem closeWrite_deadline {x y : Side} (h : x.closeWrite = some y) : y.deadline = x.deadline := by
  unfold Side.closeWrite Side.endAs at h
  split at h
  · split at h <;> cases h; rfl
  · split at h <;> cases h; rfl
  · split at h <;> cases h; rfl
  · split at h <;> cases h; rfl
  · cases h; rfl

theorem closeRead_deadline {x y : Side} (h : x.closeRead = some y) : y.deadline = x.deadline := by
  unfold Side.closeRead at h
  split at h
  · split at h <;> cases h; rfl
  all_goals cases h; rfl

theorem finish_deadline (cw : Bool) (i o : Side) (e : Bool) : (finishSides cw i o e).1.deadline = i.deadline ∧
    ((finishSides cw i o e).2.deadline = true → o.deadline = true ∨ e = false) ∧
    (o.deadline = true → (finishSides cw i o e).2.deadline = true) := by
  unfold finishSides
  split
  · simp only [close_deadline]; exact ⟨trivial, .inl, id⟩
  · rename_i hcond
    have he : e = false := by cases e <;> simp_all
    split
    · simp only [close_deadline]; exact ⟨trivial, .inl, id⟩
    · rename_i o' ho
      split
      · refine ⟨close_deadline _, fun _ => .inr he, fun h => ?_⟩
        rw [close_deadline, closeWrite_deadline ho]; exact h
      · rename_i i' hi
        refine ⟨closeRead_deadline hi, fun _ => .inr he, fun h => ?_⟩
        unfold Side.setDeadline
        split
        · rw [closeWrite_deadline ho]; exact h
        · rfl

theorem undisturbed_same {a b : Side} (h : Same a b) : Spec.Undisturbed b ↔ Spec.Undisturbed a := by
  unfold Spec.Undisturbed
  rw [h.reset, h.stop, h.lost, h.expired]

/-- The end of the direction itself. `o'` is the other side after the last write. -/
theorem inv_finish {c : Cfg} {w : Which} {s : St} (h : Inv c w s) (buf : Bytes) (hd : s.dir w = .copying buf)
    (e : Bool) (x : Bytes) (hx : (s.out w).written ++ x <+: (s.inn w).sent)
    (hdone : e = false → x = [] ∧ (s.inn w).fin = true ∧ (s.out w).written = (s.inn w).sent)
    (herr : c.closeWhenDone w.flip = false → Spec.Undisturbed (s.inn w) → Spec.Undisturbed (s.out w) → e = false) :
    Inv c w (s.finish (c.closeWhenDone w) w (s.inn w) { s.out w with written := (s.out w).written ++ x } e) := by
  have hsame := finish_same (c.closeWhenDone w) (s.inn w) { s.out w with written := (s.out w).written ++ x } e
  have hdl := finish_deadline (c.closeWhenDone w) (s.inn w) { s.out w with written := (s.out w).written ++ x } e
  unfold St.finish
  obtain ⟨S1, S2⟩ := hsame
  obtain ⟨D1, D2, D3⟩ := hdl
  refine ⟨?_, ?_, ?_, ?_, ?_, ?_, ?_, ?_, ?_⟩
  · rw [inn_set, out_set, S1.link, S2.link]; exact h.pair
  · intro buf' hb; rw [dir_set] at hb; cases hb
  · rw [inn_set, S1.taken, S1.sent]; exact h.bound
  · rw [inn_set, out_set, S1.sent, S2.written]; exact hx
  · intro hr
    rw [dir_set] at hr
    cases hr
    obtain ⟨h1, h2, h3⟩ := hdone rfl
    rw [inn_set, out_set, S1.sent, S1.fin, S2.written]
    subst h1
    exact ⟨h2, by rw [List.append_nil]; exact h3⟩
  · intro hl
    rw [out_set, S2.link] at hl
    rw [out_set, S2.sent, dir_set_flip]
    exact h.nothing hl
  · intro hr
    rw [out_set] at hr
    rw [dir_set]
    rcases D2 hr with h' | h'
    · have := h.timer h'
      rw [hd] at this; cases this
    · rw [h']
  · intro w' he
    rcases eq_or_flip w w' with rfl | rfl
    · have : ((s.set w' _ _ _).inn w').expired = true := he
      rw [inn_set, S1.expired] at this
      show ((s.set w' _ _ _).inn w').deadline = true
      rw [inn_set, D1]
      exact h.tick _ this
    · have : ((s.set w _ _ _).out w).expired = true := he
      rw [out_set, S2.expired] at this
      show ((s.set w _ _ _).out w).deadline = true
      rw [out_set]
      exact D3 (h.tick w.flip this)
  · intro hc u1 u2
    rw [inn_set, undisturbed_same S1] at u1
    rw [out_set, undisturbed_same S2] at u2
    have he := herr hc u1 u2
    subst he
    obtain ⟨h1, h2, h3⟩ := hdone rfl
    subst h1
    obtain ⟨A, B, C, D⟩ := h.clean hc u1 u2
    obtain ⟨a1, a2, a3, a4⟩ := A buf hd
    refine ⟨?_, ?_, ?_, ?_⟩
    · intro b hb; rw [dir_set] at hb; cases hb
    · intro b b' hb; rw [dir_set] at hb; cases hb
    · intro e he; rw [dir_set] at he; cases he; rfl
    · intro _ hcw
      rw [out_set] at hcw ⊢
      rw [S2.link] at hcw
      unfold finishSides
      split
      · rename_i hcond
        have hcw' : c.closeWhenDone w = true := by simpa using hcond
        rcases hcw with hcw | hcw
        · rw [hcw'] at hcw; cases hcw
        · exact close_ended (x := { s.out w with written := (s.out w).written ++ [] }) u2 a1 h.pair.2.1 hcw
      · obtain ⟨y, hy, y1, y2, y3, y4, y5⟩ :=
          calm_closeWrite (x := { s.out w with written := (s.out w).written ++ [] }) u2 a2
        rw [hy]
        dsimp only
        obtain ⟨z, hz, -⟩ := calm_closeRead u1.2.2.1 a4
        rw [hz]
        dsimp only
        rw [(setDeadline_fields y).1, y5 h.pair.2.1]
        dsimp only
        rw [a1]; rfl

/-- The end of the opposite direction. -/
theorem inv_finish_flip {c : Cfg} {w : Which} {s : St} (h : Inv c w s) (buf : Bytes) (hd : s.dir w.flip = .copying buf)
    (e : Bool) (x : Bytes)
    (herr : (∃ b, s.dir w = .copying b) → c.closeWhenDone w.flip = false → Spec.Undisturbed (s.inn w) →
      Spec.Undisturbed (s.out w) → e = false) :
    Inv c w (s.finish (c.closeWhenDone w.flip) w.flip (s.out w)
      { s.inn w with written := (s.inn w).written ++ x } e) := by
  have hsame := finish_same (c.closeWhenDone w.flip) (s.out w) { s.inn w with written := (s.inn w).written ++ x } e
  have hdl := finish_deadline (c.closeWhenDone w.flip) (s.out w) { s.inn w with written := (s.inn w).written ++ x } e
  unfold St.finish
  obtain ⟨S1, S2⟩ := hsame
  obtain ⟨D1, D2, D3⟩ := hdl
  refine ⟨?_, ?_, ?_, ?_, ?_, ?_, ?_, ?_, ?_⟩
  · rw [inn_set_flip, out_set_flip, S1.link, S2.link]; exact h.pair
  · intro buf' hb
    rw [dir_set_flip'] at hb
    rw [inn_set_flip, out_set_flip, S1.written, S2.sent, S2.taken]
    exact h.copying buf' hb
  · rw [inn_set_flip, S2.taken, S2.sent]; exact h.bound
  · rw [inn_set_flip, out_set_flip, S2.sent, S1.written]; exact h.prefixed
  · intro hr
    rw [dir_set_flip'] at hr
    rw [inn_set_flip, out_set_flip, S2.sent, S2.fin, S1.written]
    exact h.complete hr
  · intro hl
    rw [out_set_flip, S1.link] at hl
    rw [out_set_flip, S1.sent]
    refine ⟨(h.nothing hl).1, ?_⟩
    intro b hb
    rw [dir_set] at hb; cases hb
  · intro hr
    rw [out_set_flip, D1] at hr
    rw [dir_set_flip']
    exact h.timer hr
  · intro w' he
    rcases eq_or_flip w w' with rfl | rfl
    · have : ((s.set w'.flip _ _ _).inn w').expired = true := he
      rw [inn_set_flip, S2.expired] at this
      show ((s.set w'.flip _ _ _).inn w').deadline = true
      rw [inn_set_flip]
      exact D3 (h.tick _ this)
    · have : ((s.set w.flip _ _ _).out w).expired = true := he
      rw [out_set_flip, S1.expired] at this
      show ((s.set w.flip _ _ _).out w).deadline = true
      rw [out_set_flip, D1]
      exact h.tick w.flip this
  · intro hc u1 u2
    rw [inn_set_flip, undisturbed_same S2] at u1
    rw [out_set_flip, undisturbed_same S1] at u2
    have u1' : Spec.Undisturbed (s.inn w) := u1
    obtain ⟨A, B, C, D⟩ := h.clean hc u1' u2
    refine ⟨?_, ?_, ?_, ?_⟩
    · intro b hb
      rw [dir_set_flip'] at hb
      have he := herr ⟨b, hb⟩ hc u1' u2
      subst he
      obtain ⟨a1, a2, a3, a4⟩ := A b hb
      rw [inn_set_flip, out_set_flip]
      unfold finishSides
      rw [if_neg (by simp [hc])]
      obtain ⟨y, hy, y1, y2, y3, y4, y5⟩ :=
        calm_closeWrite (x := { s.inn w with written := (s.inn w).written ++ x }) u1 a4
      rw [hy]
      dsimp only
      obtain ⟨z, hz, z1, z2, z3⟩ := calm_closeRead u2.2.2.1 a2
      rw [hz]
      dsimp only
      obtain ⟨d1, d2, d3⟩ := setDeadline_fields y
      rw [d2, d3, z1, z2, y1, y2]
      exact ⟨a1, rfl, a3, rfl⟩
    · intro b b' _ hb'
      rw [dir_set] at hb'; cases hb'
    · intro e' he
      rw [dir_set_flip'] at he
      exact C e' he
    · intro hr hcw
      rw [dir_set_flip'] at hr
      rw [out_set_flip, S1.link] at hcw
      have hend := D hr hcw
      rw [out_set_flip]
      have keep : ∀ y, (s.out w).closeRead = some y → y.ended = (s.out w).ended := by
        intro y hy
        unfold Side.closeRead at hy
        split at hy
        · split at hy <;> cases hy; rfl
        all_goals cases hy; rfl
      have keep' : (s.out w).close.ended = some .orderly := by
        unfold Side.close Side.endAs
        split <;> simp [hend]
      unfold finishSides
      split
      · exact keep'
      · split
        · exact keep'
        · split
          · exact keep'
          · rename_i y hy
            rw [keep y hy]; exact hend

theorem inv_step {c : Cfg} {w : Which} {s : St} (h : Inv c w s) (op : Op) : Inv c w (s.step c op) := by
  cases op with
  | peerSend w' b =>
    unfold St.step
    dsimp only
    refine onSide_grows h w' _ ?_
    split
    · rename_i hc
      have hfin : (s.side w').fin = false ∧ (s.side w').link ≠ .send := by
        unfold Side.canSend at hc; simp at hc; exact ⟨hc.1.1.1, hc.2⟩
      exact ⟨rfl, List.prefix_append _ _, rfl, rfl, rfl, rfl, rfl, rfl, (by intro h; rw [hfin.1] at h; cases h),
        (fun h => absurd h hfin.2), .inl, id⟩
    · exact Grows.rfl' _
  | peerFin w' =>
    unfold St.step
    dsimp only
    refine onSide_grows h w' _ ?_
    split
    · exact ⟨rfl, List.prefix_refl _, rfl, rfl, rfl, rfl, rfl, rfl, fun _ => ⟨rfl, rfl⟩, fun _ => rfl, .inl, id⟩
    · exact Grows.rfl' _
  | peerReset w' =>
    unfold St.step
    dsimp only
    refine onSide_grows h w' _ ?_
    split
    · exact ⟨rfl, List.prefix_refl _, rfl, rfl, rfl, rfl, rfl, rfl, fun h => ⟨h, rfl⟩, fun _ => rfl, .inl,
        (fun h => by have := h.1; cases this)⟩
    · exact Grows.rfl' _
  | peerStop w' =>
    unfold St.step
    dsimp only
    refine onSide_grows h w' _ ?_
    exact ⟨rfl, List.prefix_refl _, rfl, rfl, rfl, rfl, rfl, rfl, fun h => ⟨h, rfl⟩, fun _ => rfl, .inl,
      (fun h => by have := h.2.1; cases this)⟩
  | lose w' =>
    unfold St.step
    dsimp only
    refine onSide_grows h w' _ ?_
    exact ⟨rfl, List.prefix_refl _, rfl, rfl, rfl, rfl, rfl, rfl, fun h => ⟨h, rfl⟩, fun _ => rfl, .inl,
      (fun h => by have := h.2.2.1; cases this)⟩
  | expire w' =>
    unfold St.step
    dsimp only
    refine onSide_grows h w' _ ?_
    split
    · rename_i hdl
      exact ⟨rfl, List.prefix_refl _, rfl, rfl, rfl, rfl, rfl, rfl, fun h => ⟨h, rfl⟩, fun _ => rfl, fun _ => .inr hdl,
        (fun h => by have := h.2.2.2; cases this)⟩
    · exact Grows.rfl' _
  | read w' n =>
    unfold St.step
    dsimp only
    split
    · rename_i hd
      rcases eq_or_flip w w' with rfl | rfl
      · -- the direction itself
        have hcp := h.copying [] hd
        rw [List.append_nil] at hcp
        split
        · rename_i hre
          have := inv_finish h [] hd true [] (by rw [List.append_nil]; exact h.prefixed) (by intro h; cases h)
            (by
              intro hc u1 u2
              obtain ⟨A, -⟩ := h.clean hc u1 u2
              obtain ⟨a1, a2, a3, a4⟩ := A [] hd
              rw [calm_readErr u1 a4 a3] at hre; cases hre)
          simpa using this
        · split
          · rename_i hlt
            -- a chunk
            refine ⟨?_, ?_, ?_, ?_, ?_, ?_, ?_, ?_, ?_⟩
            · rw [inn_set, out_set]; exact h.pair
            · intro buf hb
              rw [dir_set] at hb
              cases hb
              rw [inn_set, out_set]
              dsimp only
              rw [take_append_chunk, hcp]
            · rw [inn_set]
              dsimp only
              rw [List.length_take, List.length_drop]
              omega
            · rw [inn_set, out_set]; exact h.prefixed
            · intro hr; rw [dir_set] at hr; cases hr
            · intro hl
              rw [out_set] at hl ⊢
              rw [dir_set_flip]
              exact h.nothing hl
            · intro hr
              rw [out_set] at hr
              have := h.timer hr
              rw [hd] at this; cases this
            · intro w'' he
              rcases eq_or_flip w' w'' with rfl | rfl
              · have : ((s.set w'' _ _ _).inn w'').expired = true := he
                rw [inn_set] at this
                show ((s.set w'' _ _ _).inn w'').deadline = true
                rw [inn_set]
                exact h.tick w'' this
              · have : ((s.set w' _ _ _).out w').expired = true := he
                rw [out_set] at this
                show ((s.set w' _ _ _).out w').deadline = true
                rw [out_set]
                exact h.tick w'.flip this
            · intro hc u1 u2
              rw [inn_set] at u1
              rw [out_set] at u2
              obtain ⟨A, B, C, D⟩ := h.clean hc u1 u2
              refine ⟨?_, ?_, ?_, ?_⟩
              · intro b _; rw [inn_set, out_set]; exact A [] hd
              · intro b b' _ hb'
                rw [dir_set_flip] at hb'
                rw [inn_set, out_set]; exact B [] b' hd hb'
              · intro e he; rw [dir_set] at he; cases he
              · intro hr; rw [dir_set] at hr; cases hr
          · rename_i hge
            split
            · rename_i heof
              have hfin : (s.inn w').fin = true := by
                unfold Side.atEOF at heof
                split at heof
                · rename_i hl; exact absurd hl h.pair.1
                · exact heof
              have hall : (s.out w').written = (s.inn w').sent := by
                rw [← hcp, List.take_of_length_le (by omega)]
              have := inv_finish h [] hd false [] (by rw [List.append_nil]; exact h.prefixed)
                (fun _ => ⟨rfl, hfin, hall⟩) (fun _ _ _ => rfl)
              simpa using this
            · exact h
      · -- the opposite direction
        rw [inn_flip, out_flip]
        split
        · rename_i hre
          have := inv_finish_flip h [] hd true [] (by
              rintro ⟨b, hb⟩ hc u1 u2
              obtain ⟨A, B, -⟩ := h.clean hc u1 u2
              obtain ⟨a1, a2, a3, a4⟩ := A b hb
              obtain ⟨b1, b2⟩ := B b [] hb hd
              rw [calm_readErr u2 a2 b2] at hre; cases hre)
          simpa using this
        · split
          · rename_i hlt
            refine ⟨?_, ?_, ?_, ?_, ?_, ?_, ?_, ?_, ?_⟩
            · rw [inn_set_flip, out_set_flip]; exact h.pair
            · intro buf hb
              rw [dir_set_flip'] at hb
              rw [inn_set_flip, out_set_flip]
              exact h.copying buf hb
            · rw [inn_set_flip]; exact h.bound
            · rw [inn_set_flip, out_set_flip]; exact h.prefixed
            · intro hr
              rw [dir_set_flip'] at hr
              rw [inn_set_flip, out_set_flip]
              exact h.complete hr
            · intro hl
              rw [out_set_flip] at hl
              have := (h.nothing hl).1
              rw [this] at hlt; simp at hlt
            · intro hr
              rw [out_set_flip] at hr
              rw [dir_set_flip']
              exact h.timer hr
            · intro w'' he
              rcases eq_or_flip w w'' with rfl | rfl
              · have : ((s.set w''.flip _ _ _).inn w'').expired = true := he
                rw [inn_set_flip] at this
                show ((s.set w''.flip _ _ _).inn w'').deadline = true
                rw [inn_set_flip]
                exact h.tick w'' this
              · have : ((s.set w.flip _ _ _).out w).expired = true := he
                rw [out_set_flip] at this
                show ((s.set w.flip _ _ _).out w).deadline = true
                rw [out_set_flip]
                exact h.tick w.flip this
            · intro hc u1 u2
              rw [inn_set_flip] at u1
              rw [out_set_flip] at u2
              obtain ⟨A, B, C, D⟩ := h.clean hc u1 u2
              refine ⟨?_, ?_, ?_, ?_⟩
              · intro b hb
                rw [dir_set_flip'] at hb
                rw [inn_set_flip, out_set_flip]; exact A b hb
              · intro b b' hb _
                rw [dir_set_flip'] at hb
                rw [inn_set_flip, out_set_flip]; exact B b [] hb hd
              · intro e he; rw [dir_set_flip'] at he; exact C e he
              · intro hr hcw
                rw [dir_set_flip'] at hr
                rw [out_set_flip] at hcw ⊢
                exact D hr hcw
          · split
            · have := inv_finish_flip h [] hd false [] (fun _ _ _ _ => rfl)
              simpa using this
            · exact h
    · exact h
  | write w' k =>
    unfold St.step
    dsimp only
    split
    · rename_i b bs hd
      rcases eq_or_flip w w' with rfl | rfl
      · have hcp := h.copying _ hd
        have hpre : (s.out w').written ++ (b :: bs) <+: (s.inn w').sent := by
          rw [← hcp]; exact List.take_prefix _ _
        split
        · rename_i hwe
          refine inv_finish h _ hd true _ ?_ (by intro h; cases h) ?_
          · exact List.IsPrefix.trans ((List.prefix_append_right_inj _).mpr (List.take_prefix _ _)) hpre
          · intro hc u1 u2
            obtain ⟨A, -⟩ := h.clean hc u1 u2
            obtain ⟨a1, a2, a3, a4⟩ := A _ hd
            rw [calm_writeErr u2 a1 h.pair.2.1] at hwe; cases hwe
        · refine ⟨?_, ?_, ?_, ?_, ?_, ?_, ?_, ?_, ?_⟩
          · rw [inn_set, out_set]; exact h.pair
          · intro buf hb
            rw [dir_set] at hb
            cases hb
            rw [inn_set, out_set]
            dsimp only
            rw [List.append_nil, hcp]
          · rw [inn_set]; exact h.bound
          · rw [inn_set, out_set]; exact hpre
          · intro hr; rw [dir_set] at hr; cases hr
          · intro hl
            rw [out_set] at hl ⊢
            rw [dir_set_flip]
            exact h.nothing hl
          · intro hr
            rw [out_set] at hr
            have := h.timer hr
            rw [hd] at this; cases this
          · intro w'' he
            rcases eq_or_flip w' w'' with rfl | rfl
            · have : ((s.set w'' _ _ _).inn w'').expired = true := he
              rw [inn_set] at this
              show ((s.set w'' _ _ _).inn w'').deadline = true
              rw [inn_set]
              exact h.tick w'' this
            · have : ((s.set w' _ _ _).out w').expired = true := he
              rw [out_set] at this
              show ((s.set w' _ _ _).out w').deadline = true
              rw [out_set]
              exact h.tick w'.flip this
          · intro hc u1 u2
            rw [inn_set] at u1
            rw [out_set] at u2
            obtain ⟨A, B, C, D⟩ := h.clean hc u1 u2
            refine ⟨?_, ?_, ?_, ?_⟩
            · intro x _; rw [inn_set, out_set]; exact A _ hd
            · intro x b' _ hb'
              rw [dir_set_flip] at hb'
              rw [inn_set, out_set]; exact B _ b' hd hb'
            · intro e he; rw [dir_set] at he; cases he
            · intro hr; rw [dir_set] at hr; cases hr
      · rw [inn_flip, out_flip]
        have hrecv : (s.inn w).link ≠ .recv := by
          intro hl
          have := (h.nothing (h.pair.2.2 hl)).2 _ hd
          cases this
        split
        · rename_i hwe
          refine inv_finish_flip h _ hd true _ ?_
          rintro ⟨x, hx⟩ hc u1 u2
          obtain ⟨-, B, -⟩ := h.clean hc u1 u2
          obtain ⟨b1, b2⟩ := B x _ hx hd
          rw [calm_writeErr u1 b1 hrecv] at hwe; cases hwe
        · refine ⟨?_, ?_, ?_, ?_, ?_, ?_, ?_, ?_, ?_⟩
          · rw [inn_set_flip, out_set_flip]; exact h.pair
          · intro buf hb
            rw [dir_set_flip'] at hb
            rw [inn_set_flip, out_set_flip]
            exact h.copying buf hb
          · rw [inn_set_flip]; exact h.bound
          · rw [inn_set_flip, out_set_flip]; exact h.prefixed
          · intro hr
            rw [dir_set_flip'] at hr
            rw [inn_set_flip, out_set_flip]
            exact h.complete hr
          · intro hl
            rw [out_set_flip] at hl ⊢
            refine ⟨(h.nothing hl).1, ?_⟩
            intro x hx
            rw [dir_set] at hx; cases hx; rfl
          · intro hr
            rw [out_set_flip] at hr
            rw [dir_set_flip']
            exact h.timer hr
          · intro w'' he
            rcases eq_or_flip w w'' with rfl | rfl
            · have : ((s.set w''.flip _ _ _).inn w'').expired = true := he
              rw [inn_set_flip] at this
              show ((s.set w''.flip _ _ _).inn w'').deadline = true
              rw [inn_set_flip]
              exact h.tick w'' this
            · have : ((s.set w.flip _ _ _).out w).expired = true := he
              rw [out_set_flip] at this
              show ((s.set w.flip _ _ _).out w).deadline = true
              rw [out_set_flip]
              exact h.tick w.flip this
          · intro hc u1 u2
            rw [inn_set_flip] at u1
            rw [out_set_flip] at u2
            obtain ⟨A, B, C, D⟩ := h.clean hc u1 u2
            refine ⟨?_, ?_, ?_, ?_⟩
            · intro x hx
              rw [dir_set_flip'] at hx
              rw [inn_set_flip, out_set_flip]; exact A x hx
            · intro x b' hx _
              rw [dir_set_flip'] at hx
              rw [inn_set_flip, out_set_flip]; exact B x _ hx hd
            · intro e he; rw [dir_set_flip'] at he; exact C e he
            · intro hr hcw
              rw [dir_set_flip'] at hr
              rw [out_set_flip] at hcw ⊢
              exact D hr hcw
    · exact h

theorem inv_run (c : Cfg) (w : Which) (ops : List Op) {s : St} (h : Inv c w s) : Inv c w (s.run c ops) := by
  induction ops generalizing s with
  | nil => exact h
  | cons o os ih => exact ih (inv_step h o)

/-- The links at the beginning and at the end of a direction. -/
def Spec.from' (cl sv : Link) : Which → Link
  | .up => cl
  | .down => sv

def Spec.to (cl sv : Link) (w : Which) : Link := Spec.from' cl sv w.flip

theorem inv_reach (c : Cfg) (cl sv : Link) (ops : List Op) (w : Which)
    (hp : Spec.Pair (Spec.from' cl sv w) (Spec.to cl sv w)) : Inv c w ((init cl sv).run c ops) := by
  refine inv_run c w ops (inv_init c w cl sv ?_)
  cases w <;> exact hp

/-! ## C119 -/

/-- C119, in part. If nobody breaks anything off, no deadline passes, and the end of the other direction does not
end the connection by configuration, the peer sees an orderly end only if the other peer has ended its stream,
and then it has received all of it. -/
theorem orderly_partial (c : Cfg) (cl sv : Link) (ops : List Op) (w : Which)
    (hp : Spec.Pair (Spec.from' cl sv w) (Spec.to cl sv w)) (hc : c.closeWhenDone w.flip = false)
    (u1 : Spec.Undisturbed (((init cl sv).run c ops).inn w)) (u2 : Spec.Undisturbed (((init cl sv).run c ops).out w)) :
    Spec.Faithful ((init cl sv).run c ops) w := by
  have h := inv_reach c cl sv ops w hp
  generalize (init cl sv).run c ops = s at h u1 u2
  intro he
  obtain ⟨A, -, C, -⟩ := h.clean hc u1 u2
  cases hd : s.dir w with
  | copying b => rw [(A b hd).1] at he; cases he
  | returned e =>
    have := C e hd
    subst this
    exact h.complete hd

theorem step_link (c : Cfg) (s : St) (o : Op) {l : Which → Link} (h : ∀ w', (s.side w').link = l w') :
    ∀ w', ((s.step c o).side w').link = l w' := by
  have hset : ∀ (w : Which) (i o : Side) (d : Dir), i.link = l w → o.link = l w.flip →
      ∀ w', ((s.set w i o d).side w').link = l w' := by
    intro w i o d hi ho w'
    rcases eq_or_flip w w' with rfl | rfl
    · simp [St.set, hi]
    · simp [St.set, flip_ne, ho]
  have hfin : ∀ (cw : Bool) (w : Which) (i o : Side) (e : Bool), i.link = l w → o.link = l w.flip →
      ∀ w', ((s.finish cw w i o e).side w').link = l w' := by
    intro cw w i o e hi ho
    have := finish_same cw i o e
    exact hset w _ _ _ (this.1.link.trans hi) (this.2.link.trans ho)
  have hon : ∀ (w : Which) (f : Side → Side), (∀ x, (f x).link = x.link) →
      ∀ w', ((s.onSide w f).side w').link = l w' := by
    intro w f hf w'
    unfold St.onSide
    dsimp only
    split
    · rw [hf]; exact h w'
    · exact h w'
  cases o with
  | peerSend w b =>
    unfold St.step; dsimp only
    refine hon w _ (fun x => ?_)
    split <;> rfl
  | peerFin w =>
    unfold St.step; dsimp only
    refine hon w _ (fun x => ?_)
    split <;> rfl
  | peerReset w =>
    unfold St.step; dsimp only
    refine hon w _ (fun x => ?_)
    split <;> rfl
  | peerStop w => unfold St.step; exact hon w (fun x => { x with stop := true }) (fun x => rfl)
  | lose w => unfold St.step; exact hon w (fun x => { x with lost := true }) (fun x => rfl)
  | expire w =>
    unfold St.step; dsimp only
    refine hon w _ (fun x => ?_)
    split <;> rfl
  | read w n =>
    unfold St.step
    dsimp only
    split
    · split
      · exact hfin _ _ _ _ _ (h w) (h w.flip)
      · split
        · exact hset _ _ _ _ (h w) (h w.flip)
        · split
          · exact hfin _ _ _ _ _ (h w) (h w.flip)
          · exact h
    · exact h
  | write w n =>
    unfold St.step
    dsimp only
    split
    · split
      · exact hfin _ _ _ _ _ (h w) (h w.flip)
      · exact hset _ _ _ _ (h w) (h w.flip)
    · exact h

/-- C119, the converse, in part: under the same conditions, once the relay has nothing to do and the peer has ended
its stream, the other peer has received all of it and an orderly end. Except where TCP is closed entirely. -/
theorem delivered_partial (c : Cfg) (cl sv : Link) (ops : List Op) (w : Which)
    (hp : Spec.Pair (Spec.from' cl sv w) (Spec.to cl sv w)) (hc : c.closeWhenDone w.flip = false)
    (hw : c.closeWhenDone w = false ∨ Spec.to cl sv w ≠ .tcp)
    (u1 : Spec.Undisturbed (((init cl sv).run c ops).inn w)) (u2 : Spec.Undisturbed (((init cl sv).run c ops).out w))
    (hq : Spec.Quiet c ((init cl sv).run c ops)) (hf : (((init cl sv).run c ops).inn w).fin = true) :
    (((init cl sv).run c ops).out w).ended = some .orderly ∧
      (((init cl sv).run c ops).out w).written = (((init cl sv).run c ops).inn w).sent := by
  have h := inv_reach c cl sv ops w hp
  have hlink : (((init cl sv).run c ops).out w).link = Spec.to cl sv w := by
    have key : ∀ (ops : List Op) (s : St), (∀ w', (s.side w').link = Spec.from' cl sv w') →
        ∀ w', ((s.run c ops).side w').link = Spec.from' cl sv w' := by
      intro ops
      induction ops with
      | nil => exact fun s hs => hs
      | cons o os ih =>
        intro s hs
        exact ih _ (step_link c s o hs)
    exact key ops (init cl sv) (by intro w'; cases w' <;> rfl) w.flip
  generalize (init cl sv).run c ops = s at h u1 u2 hq hf hlink
  obtain ⟨A, -, C, D⟩ := h.clean hc u1 u2
  cases hd : s.dir w with
  | copying b =>
    exfalso
    obtain ⟨a1, a2, a3, a4⟩ := A b hd
    cases b with
    | nil =>
      have hr := (hq w 0).1
      have hdir : (s.step c (.read w 0)).dir w = .copying [] := by rw [hr]; exact hd
      unfold St.step at hdir
      dsimp only at hdir
      rw [hd] at hdir
      dsimp only at hdir
      rw [calm_readErr u1 a4 a3] at hdir
      rw [if_neg (by simp)] at hdir
      split at hdir
      · rename_i hlt
        rw [dir_set] at hdir
        injection hdir with hdir
        rw [List.take_eq_nil_iff, List.drop_eq_nil_iff] at hdir
        omega
      · have : (s.inn w).atEOF = true := by
          unfold Side.atEOF
          split
          · rfl
          · exact hf
        rw [if_pos this] at hdir
        unfold St.finish at hdir
        rw [dir_set] at hdir; cases hdir
    | cons x bs =>
      have hr := (hq w 0).2
      have hdir : (s.step c (.write w 0)).dir w = .copying (x :: bs) := by rw [hr]; exact hd
      unfold St.step at hdir
      dsimp only at hdir
      rw [hd] at hdir
      dsimp only at hdir
      rw [calm_writeErr u2 a1 h.pair.2.1] at hdir
      rw [if_neg (by simp), dir_set] at hdir
      cases hdir
  | returned e =>
    have := C e hd
    subst this
    refine ⟨D hd ?_, (h.complete hd).2⟩
    rw [hlink]; exact hw

/-- Whatever happens, what arrives is the beginning of what was sent. -/
theorem arrived_prefix (c : Cfg) (cl sv : Link) (ops : List Op) (w : Which)
    (hp : Spec.Pair (Spec.from' cl sv w) (Spec.to cl sv w)) :
    (((init cl sv).run c ops).out w).written <+: (((init cl sv).run c ops).inn w).sent :=
  (inv_reach c cl sv ops w hp).prefixed

/-- C119 is violated. A client that breaks off a QUIC stream, and a server whose TCP connection breaks down,
appear to the other side as having ended in order, with only part of the data. -/
theorem orderly_violated :
    (∃ ops, ¬ Spec.Faithful ((init .quic .quic).run (Cfg.quicDefaults {}) ops) .up) ∧
    (∃ ops, ¬ Spec.Faithful ((init .tls .tcp).run {} ops) .down) := by
  refine ⟨⟨[.peerSend .up [1, 2], .read .up 0, .write .up 0, .peerReset .up, .read .up 0], ?_⟩,
    ⟨[.peerSend .down [1, 2], .read .down 0, .write .down 0, .lose .down, .read .down 0], ?_⟩⟩
  · intro h
    have := (h (by decide +kernel)).1
    exact absurd this (by decide +kernel)
  · intro h
    have := (h (by decide +kernel)).1
    exact absurd this (by decide +kernel)

/-- C119 is violated by one-way streams that last longer than the time for half-closed connections, although nothing
is closed: the receiver gets an orderly end in the middle of the stream. -/
theorem oneway_violated : ∃ ops,
    let s := (init .recv .send).run (Cfg.quicDefaults {}) ops
    ¬ Spec.Faithful s .up ∧ (s.inn .up).lost = false ∧ (s.out .up).lost = false ∧ (s.inn .up).reset = false ∧
      (s.out .up).stop = false ∧ (s.inn .up).fin = false := by
  refine ⟨[.read .down 0, .peerSend .up [1], .read .up 0, .write .up 0, .expire .up, .read .up 0], ?_⟩
  refine ⟨?_, by decide +kernel, by decide +kernel, by decide +kernel, by decide +kernel, by decide +kernel⟩
  intro h
  have := (h (by decide +kernel)).1
  exact absurd this (by decide +kernel)

/-- C119, the converse, is violated. A server behind a TCP relay ends its stream while the client is still sending:
everything was passed on, but the client's connection is reset, which may cost the client what it has not read. -/
theorem delivered_violated : ∃ ops,
    let s := (init .tcp .tcp).run {} ops
    Spec.Undisturbed (s.inn .down) ∧ Spec.Undisturbed (s.out .down) ∧ (s.inn .down).fin = true ∧
      (s.out .down).written = (s.inn .down).sent ∧ (s.out .down).ended = some .abort := by
  refine ⟨[.peerSend .down [1], .peerFin .down, .read .down 0, .write .down 0, .peerSend .up [9], .read .down 0], ?_⟩
  simp only [Spec.Undisturbed]
  decide +kernel

/-- The hypotheses of `orderly_partial` and `delivered_partial` are met: both streams of a TLS client and a TCP server
end one after the other, with `serverCloseEndsConnection` off. -/
example : let c : Cfg := { serverCloseEnds := some false }
    let s := (init .tls .tcp).run c [.peerSend .up [1, 2], .peerFin .up, .read .up 9, .write .up 0, .read .up 0,
      .peerSend .down [3], .read .down 0, .write .down 0, .peerFin .down, .read .down 0]
    c.closeWhenDone (Which.flip .up) = false ∧ (s.inn .up).fin = true ∧ (s.out .up).ended = some .orderly ∧
      (s.out .up).written = [1, 2] ∧ (s.out .down).ended = some .orderly ∧ (s.out .down).written = [3] ∧
      s.dir .up = .returned false ∧ s.dir .down = .returned false := by decide +kernel

/-! ## C120 -/

/-- C120, the clock, in part: unless the stream is one-way, the time for half-closed connections runs for a peer only
after the other peer has ended its stream, and all of it was passed on. -/
theorem timer_partial (c : Cfg) (cl sv : Link) (ops : List Op) (w : Which)
    (hp : Spec.Pair (Spec.from' cl sv w) (Spec.to cl sv w))
    (hd : (((init cl sv).run c ops).out w).deadline = true) :
    (((init cl sv).run c ops).inn w).fin = true ∧
      (((init cl sv).run c ops).out w).written = (((init cl sv).run c ops).inn w).sent := by
  have h := inv_reach c cl sv ops w hp
  exact h.complete (h.timer hd)

/-- C120 is violated by one-way streams: the clock runs although nobody has closed anything. -/
theorem timer_violated : ∃ ops,
    let s := (init .recv .send).run (Cfg.quicDefaults {}) ops
    (s.inn .up).deadline = true ∧ (s.inn .up).fin = false ∧ (s.out .up).ended = none ∧
      Spec.Undisturbed (s.inn .up) ∧ Spec.Undisturbed (s.out .up) := by
  refine ⟨[.read .down 0], ?_⟩
  simp only [Spec.Undisturbed]
  decide +kernel

def Link.whole (l : Link) : Prop := l = .tcp ∨ l = .tls

/-- What a finished direction leaves behind, if both connections are closed entirely by `Close`. -/
def Ends (s : St) : Prop := (∀ w, (s.side w).link.whole) ∧
  ∀ w e, s.dir w = .returned e → ((s.inn w).closed = true ∧ (s.out w).closed = true) ∨ (s.out w).deadline = true

theorem close_closed (x : Side) : (x.link.whole → x.close.closed = true) ∧ (x.closed = true → x.close.closed = true) := by
  unfold Link.whole Side.close Side.endAs
  split <;> simp_all

theorem closeWrite_closed {x y : Side} (h : x.closeWrite = some y) : y.closed = x.closed := by
  unfold Side.closeWrite Side.endAs at h
  split at h
  · split at h <;> cases h; rfl
  · split at h <;> cases h; rfl
  · split at h <;> cases h; rfl
  · split at h <;> cases h; rfl
  · cases h; rfl

theorem closeRead_closed {x y : Side} (h : x.closeRead = some y) : y.closed = x.closed := by
  unfold Side.closeRead at h
  split at h
  · split at h <;> cases h; rfl
  all_goals cases h; rfl

theorem setDeadline_set {x : Side} (h : x.link ≠ .send) : x.setDeadline.deadline = true := by
  unfold Side.setDeadline
  split
  · contradiction
  · rfl

theorem finish_closed (cw : Bool) (i o : Side) (e : Bool) :
    (i.closed = true → (finishSides cw i o e).1.closed = true) ∧
    (o.closed = true → (finishSides cw i o e).2.closed = true) ∧
    (i.link.whole → o.link.whole → ((finishSides cw i o e).1.closed = true ∧ (finishSides cw i o e).2.closed = true) ∨
      (finishSides cw i o e).2.deadline = true) := by
  unfold finishSides
  split
  · exact ⟨(close_closed _).2, (close_closed _).2, fun h h' => .inl ⟨(close_closed _).1 h, (close_closed _).1 h'⟩⟩
  · split
    · exact ⟨(close_closed _).2, (close_closed _).2, fun h h' => .inl ⟨(close_closed _).1 h, (close_closed _).1 h'⟩⟩
    · rename_i o' ho
      split
      · refine ⟨(close_closed _).2, ?_, ?_⟩
        · intro h; rw [← closeWrite_closed ho] at h; exact (close_closed _).2 h
        · intro h h'
          rw [← (closeWrite_same ho).link] at h'
          exact .inl ⟨(close_closed _).1 h, (close_closed _).1 h'⟩
      · rename_i i' hi
        dsimp only
        refine ⟨?_, ?_, ?_⟩
        · intro h; rw [closeRead_closed hi]; exact h
        · intro h; rw [(setDeadline_fields _).2.1, closeWrite_closed ho]; exact h
        · intro _ h'
          refine .inr (setDeadline_set ?_)
          rw [(closeWrite_same ho).link]
          rcases h' with h' | h' <;> rw [h'] <;> simp

theorem ends_set {s : St} (h : Ends s) (w : Which) (i o : Side) (d : Dir) (hi : Same (s.inn w) i ∨ i.link = (s.inn w).link)
    (ho : o.link = (s.out w).link) (ci : (s.inn w).closed = true → i.closed = true)
    (co : (s.out w).closed = true → o.closed = true) (di : (s.inn w).deadline = true → i.deadline = true)
    (hd : ∀ e, d = .returned e → (i.closed = true ∧ o.closed = true) ∨ o.deadline = true) : Ends (s.set w i o d) := by
  have hil : i.link = (s.inn w).link := by
    rcases hi with hi | hi
    · exact hi.link
    · exact hi
  refine ⟨?_, ?_⟩
  · intro w'
    rcases eq_or_flip w w' with rfl | rfl
    · have := h.1 w'
      show ((s.set w' i o d).inn w').link.whole
      rw [inn_set, hil]; exact this
    · have := h.1 w.flip
      show ((s.set w i o d).out w).link.whole
      rw [out_set, ho]; exact this
  · intro w' e he
    rcases eq_or_flip w w' with rfl | rfl
    · rw [dir_set] at he
      rw [inn_set, out_set]
      exact hd e he
    · rw [dir_set_flip] at he
      rw [inn_flip, out_flip, inn_set, out_set]
      have := h.2 w.flip e he
      rw [inn_flip, out_flip] at this
      rcases this with ⟨a, b⟩ | a
      · exact .inl ⟨co a, ci b⟩
      · exact .inr (di a)

theorem ends_step (c : Cfg) (s : St) (o : Op) (h : Ends s) : Ends (s.step c o) := by
  have hon : ∀ (w : Which) (f : Side → Side), (∀ x, (f x).link = x.link ∧ (f x).closed = x.closed ∧
      (f x).deadline = x.deadline) → Ends (s.onSide w f) := by
    intro w f hf
    have hs : ∀ w', ((s.onSide w f).side w').link = (s.side w').link ∧ ((s.onSide w f).side w').closed = (s.side w').closed ∧
        ((s.onSide w f).side w').deadline = (s.side w').deadline := by
      intro w'
      unfold St.onSide
      dsimp only
      split
      · exact hf _
      · exact ⟨rfl, rfl, rfl⟩
    refine ⟨?_, ?_⟩
    · intro w'; rw [(hs w').1]; exact h.1 w'
    · intro w' e he
      have := h.2 w' e he
      unfold St.inn St.out at this ⊢
      rw [(hs w').2.1, (hs w'.flip).2.1, (hs w'.flip).2.2]
      exact this
  have hfin : ∀ (w : Which) (x : Bytes) (e : Bool), Ends (s.finish (c.closeWhenDone w) w (s.inn w)
      { s.out w with written := x } e) := by
    intro w x e
    obtain ⟨S1, S2⟩ := finish_same (c.closeWhenDone w) (s.inn w) { s.out w with written := x } e
    obtain ⟨D1, D2, D3⟩ := finish_deadline (c.closeWhenDone w) (s.inn w) { s.out w with written := x } e
    obtain ⟨C1, C2, C3⟩ := finish_closed (c.closeWhenDone w) (s.inn w) { s.out w with written := x } e
    refine ends_set h w _ _ _ (.inl S1) S2.link C1 C2 (fun h => by rw [D1]; exact h) ?_
    intro e' _
    exact C3 (h.1 w) (h.1 w.flip)
  cases o with
  | peerSend w b =>
    unfold St.step; dsimp only
    refine hon w _ (fun x => ?_)
    split <;> exact ⟨rfl, rfl, rfl⟩
  | peerFin w =>
    unfold St.step; dsimp only
    refine hon w _ (fun x => ?_)
    split <;> exact ⟨rfl, rfl, rfl⟩
  | peerReset w =>
    unfold St.step; dsimp only
    refine hon w _ (fun x => ?_)
    split <;> exact ⟨rfl, rfl, rfl⟩
  | peerStop w => unfold St.step; exact hon w (fun x => { x with stop := true }) (fun x => ⟨rfl, rfl, rfl⟩)
  | lose w => unfold St.step; exact hon w (fun x => { x with lost := true }) (fun x => ⟨rfl, rfl, rfl⟩)
  | expire w =>
    unfold St.step; dsimp only
    refine hon w _ (fun x => ?_)
    split <;> exact ⟨rfl, rfl, rfl⟩
  | read w n =>
    unfold St.step
    dsimp only
    split
    · split
      · exact hfin w _ _
      · split
        · exact ends_set h w _ _ _ (.inr rfl) rfl id id id (fun e he => by cases he)
        · split
          · exact hfin w _ _
          · exact h
    · exact h
  | write w n =>
    unfold St.step
    dsimp only
    split
    · split
      · exact hfin w _ _
      · exact ends_set h w _ _ _ (.inr rfl) rfl id id id (fun e he => by cases he)
    · exact h

/-- A direction whose source fails has something to do. -/
theorem quiet_done {c : Cfg} {s : St} (hq : Spec.Quiet c s) {w : Which} (hre : (s.inn w).readErr = true) :
    Spec.Done s w := by
  cases hd : s.dir w with
  | returned e => exact ⟨e, hd⟩
  | copying b =>
    exfalso
    cases b with
    | nil =>
      have hdir : (s.step c (.read w 0)).dir w = .copying [] := by rw [(hq w 0).1]; exact hd
      unfold St.step at hdir
      dsimp only at hdir
      rw [hd] at hdir
      dsimp only at hdir
      rw [if_pos hre] at hdir
      unfold St.finish at hdir
      rw [dir_set] at hdir; cases hdir
    | cons x bs =>
      have hdir : (s.step c (.write w 0)).dir w = .copying (x :: bs) := by rw [(hq w 0).2]; exact hd
      unfold St.step at hdir
      dsimp only at hdir
      rw [hd] at hdir
      dsimp only at hdir
      split at hdir
      · unfold St.finish at hdir
        rw [dir_set] at hdir; cases hdir
      · rw [dir_set] at hdir; cases hdir

/-- C120, in part. If both connections are TCP or TLS: when one direction has ended and the time for half-closed
connections has passed, the relay has ended altogether, or still has something to do. -/
theorem ends_partial (c : Cfg) (cl sv : Link) (hcl : cl.whole) (hsv : sv.whole) (ops : List Op)
    (hq : Spec.Quiet c ((init cl sv).run c ops)) (w : Which) (hd : Spec.Done ((init cl sv).run c ops) w)
    (ht : ∀ w', (((init cl sv).run c ops).side w').deadline = true → (((init cl sv).run c ops).side w').expired = true) :
    ∀ w', Spec.Done ((init cl sv).run c ops) w' := by
  have key : Ends ((init cl sv).run c ops) := by
    have : ∀ (ops : List Op) (s : St), Ends s → Ends (s.run c ops) := by
      intro ops
      induction ops with
      | nil => exact fun _ h => h
      | cons o os ih => exact fun s h => ih _ (ends_step c s o h)
    refine this ops _ ⟨?_, ?_⟩
    · intro w'; cases w'
      · exact hcl
      · exact hsv
    · intro w e h; cases h
  generalize (init cl sv).run c ops = s at hq hd ht key
  intro w'
  rcases eq_or_flip w w' with rfl | rfl
  · exact hd
  obtain ⟨e, he⟩ := hd
  have hre : (s.inn w.flip).readErr = true := by
    have hl := key.1 w.flip
    rw [inn_flip]
    unfold Side.readErr
    split
    · rename_i h
      have hl' : (s.out w).link.whole := hl
      rw [h] at hl'
      rcases hl' with h | h <;> cases h
    · rcases key.2 w e he with ⟨-, h⟩ | h
      · simp [h]
      · have := ht w.flip h
        have h' : (s.out w).expired = true := this
        simp [h']
  exact quiet_done hq hre

/-- The same for two QUIC streams, which `Close` closes for writing only. -/
structure EndsQ (s : St) : Prop where
  links : ∀ w, (s.side w).link = .quic
  closed : ∀ w, (s.side w).closed = false
  open' : ∀ w b, s.dir w = .copying b → (s.inn w).rclosed = false
  ended : ∀ w b, s.dir w = .copying b → (s.out w).ended.isSome = true → Spec.Done s w.flip
  timer : ∀ w, (s.out w).deadline = true → Spec.Done s w
  tick : ∀ w, (s.side w).expired = true → (s.side w).deadline = true
  half : (∀ w, (s.side w).reset = false ∧ (s.side w).stop = false ∧ (s.side w).lost = false) →
    ∀ w, Spec.Done s w → (s.out w).deadline = true ∨ Spec.Done s w.flip

/-- What `finishSides` does to QUIC streams. -/
theorem finish_quic (i o : Side) (e : Bool) (hi : i.link = .quic) (ho : o.link = .quic) :
    (finishSides false i o e).1.closed = i.closed ∧ (finishSides false i o e).2.closed = o.closed ∧
    (finishSides false i o e).2.rclosed = o.rclosed ∧
    (o.stop = false → e = false → (finishSides false i o e).2.deadline = true) := by
  have c1 : ∀ x : Side, x.link = .quic → x.close.closed = x.closed ∧ x.close.rclosed = x.rclosed := by
    intro x hx
    unfold Side.close Side.endAs
    rw [hx]
    exact ⟨rfl, rfl⟩
  unfold finishSides
  split
  · rename_i hc
    refine ⟨(c1 i hi).1, (c1 o ho).1, (c1 o ho).2, ?_⟩
    intro _ he
    subst he
    simp at hc
  · unfold Side.closeWrite Side.closeRead
    rw [ho, hi]
    dsimp only
    split
    · rename_i y hy
      refine ⟨(c1 i hi).1, (c1 o ho).1, (c1 o ho).2, ?_⟩
      intro hs
      rw [if_neg (by simp [hs])] at hy
      cases hy
    · rename_i y hy
      split at hy
      · cases hy
      · cases hy
        unfold Side.setDeadline Side.endAs
        dsimp only
        rw [ho]
        exact ⟨rfl, rfl, rfl, fun _ _ => rfl⟩

theorem done_set {s : St} (w : Which) (i o : Side) (d : Dir) {w' : Which} (h : Spec.Done s w')
    (hd : w' = w → ∃ e, d = .returned e) : Spec.Done (s.set w i o d) w' := by
  unfold Spec.Done St.set
  dsimp only
  split
  · rename_i he; exact hd he
  · exact h

theorem endsQ_finish {s : St} (h : EndsQ s) (w : Which) (x : Bytes) (e : Bool) (b : Bytes) (hb : s.dir w = .copying b)
    (he : (∀ w, (s.side w).reset = false ∧ (s.side w).stop = false ∧ (s.side w).lost = false) → e = true →
      Spec.Done s w.flip) : EndsQ (s.finish false w (s.inn w) { s.out w with written := x } e) := by
  obtain ⟨S1, S2⟩ := finish_same false (s.inn w) { s.out w with written := x } e
  obtain ⟨D1, D2, D3⟩ := finish_deadline false (s.inn w) { s.out w with written := x } e
  obtain ⟨Q1, Q2, Q3, Q4⟩ := finish_quic (s.inn w) { s.out w with written := x } e (h.links w) (h.links w.flip)
  have hdone : Spec.Done (s.finish false w (s.inn w) { s.out w with written := x } e) w := ⟨e, by simp [St.finish]⟩
  have hmono : ∀ w', Spec.Done s w' → Spec.Done (s.finish false w (s.inn w) { s.out w with written := x } e) w' :=
    fun w' hw' => done_set w _ _ _ hw' (fun _ => ⟨e, rfl⟩)
  have hflip : ∀ {b' : Bytes}, (s.finish false w (s.inn w) { s.out w with written := x } e).dir w.flip = .copying b' →
      s.dir w.flip = .copying b' := by
    intro b' h'
    unfold St.finish at h'
    rw [dir_set_flip] at h'; exact h'
  have hside : ∀ w', (s.finish false w (s.inn w) { s.out w with written := x } e).side w' =
      if w' = w then (finishSides false (s.inn w) { s.out w with written := x } e).1
      else (finishSides false (s.inn w) { s.out w with written := x } e).2 := fun _ => rfl
  refine ⟨?_, ?_, ?_, ?_, ?_, ?_, ?_⟩
  · intro w'
    rw [hside]
    split
    · rw [S1.link]; exact h.links w
    · rw [S2.link]; exact h.links w.flip
  · intro w'
    rw [hside]
    split
    · rw [Q1]; exact h.closed w
    · rw [Q2]; exact h.closed w.flip
  · intro w' b' hb'
    rcases eq_or_flip w w' with rfl | rfl
    · obtain ⟨e', he'⟩ := hdone
      rw [he'] at hb'; cases hb'
    · show ((s.finish false w _ _ e).side w.flip).rclosed = false
      rw [hside, if_neg (flip_ne w), Q3]
      exact h.open' w.flip b' (hflip hb')
  · intro w' b' hb' _
    rcases eq_or_flip w w' with rfl | rfl
    · obtain ⟨e', he'⟩ := hdone
      rw [he'] at hb'; cases hb'
    · rw [flip_flip]; exact hdone
  · intro w' hd
    rcases eq_or_flip w w' with rfl | rfl
    · exact hdone
    · refine hmono _ (h.timer w.flip ?_)
      rw [out_flip] at hd ⊢
      unfold St.finish at hd
      rw [inn_set, D1] at hd; exact hd
  · intro w' hx
    rw [hside] at hx ⊢
    split at hx
    · rw [if_pos (by assumption), D1]
      rw [S1.expired] at hx
      exact h.tick w hx
    · rw [if_neg (by assumption)]
      rw [S2.expired] at hx
      exact D3 (h.tick w.flip hx)
  · intro hcalm w' hw'
    have hcalm' : ∀ w, (s.side w).reset = false ∧ (s.side w).stop = false ∧ (s.side w).lost = false := by
      have h1 := hcalm w
      have h2 := hcalm w.flip
      rw [hside, if_pos rfl, S1.reset, S1.stop, S1.lost] at h1
      rw [hside, if_neg (flip_ne w), S2.reset, S2.stop, S2.lost] at h2
      intro w''
      rcases eq_or_flip w w'' with rfl | rfl
      · exact h1
      · exact h2
    rcases eq_or_flip w w' with rfl | rfl
    · cases e with
      | true => exact .inr (hmono _ (he hcalm' rfl))
      | false =>
        refine .inl ?_
        unfold St.finish
        rw [out_set]
        exact Q4 (hcalm' w'.flip).2.1 rfl
    · rw [flip_flip]; exact .inr hdone

theorem endsQ_copy {s : St} (h : EndsQ s) (w : Which) (i o : Side) (b b' : Bytes) (hb : s.dir w = .copying b)
    (hi : i = { s.inn w with taken := i.taken }) (ho : o = { s.out w with written := o.written }) :
    EndsQ (s.set w i o (.copying b')) := by
  have hside : ∀ w', (s.set w i o (.copying b')).side w' = if w' = w then i else o := fun _ => rfl
  have hd : ∀ w', Spec.Done (s.set w i o (.copying b')) w' → Spec.Done s w' := by
    intro w' ⟨e, he⟩
    unfold St.set at he
    dsimp only at he
    split at he
    · cases he
    · exact ⟨e, he⟩
  have hd' : ∀ w', Spec.Done s w' → Spec.Done (s.set w i o (.copying b')) w' := by
    intro w' hw'
    refine done_set w _ _ _ hw' ?_
    rintro rfl
    obtain ⟨e, he⟩ := hw'
    rw [hb] at he; cases he
  have hc : ∀ {w' b''}, (s.set w i o (.copying b')).dir w' = .copying b'' → ∃ b3, s.dir w' = .copying b3 := by
    intro w' b'' h'
    unfold St.set at h'
    dsimp only at h'
    split at h'
    · rename_i e; rw [e]; exact ⟨b, hb⟩
    · exact ⟨_, h'⟩
  have same : ∀ w', ((s.set w i o (.copying b')).side w').link = (s.side w').link ∧
      ((s.set w i o (.copying b')).side w').closed = (s.side w').closed ∧
      ((s.set w i o (.copying b')).side w').rclosed = (s.side w').rclosed ∧
      ((s.set w i o (.copying b')).side w').ended = (s.side w').ended ∧
      ((s.set w i o (.copying b')).side w').deadline = (s.side w').deadline ∧
      ((s.set w i o (.copying b')).side w').expired = (s.side w').expired ∧
      ((s.set w i o (.copying b')).side w').reset = (s.side w').reset ∧
      ((s.set w i o (.copying b')).side w').stop = (s.side w').stop ∧
      ((s.set w i o (.copying b')).side w').lost = (s.side w').lost := by
    intro w'
    rw [hside]
    rcases eq_or_flip w w' with rfl | rfl
    · rw [if_pos rfl, hi]; exact ⟨rfl, rfl, rfl, rfl, rfl, rfl, rfl, rfl, rfl⟩
    · rw [if_neg (flip_ne w), ho]; exact ⟨rfl, rfl, rfl, rfl, rfl, rfl, rfl, rfl, rfl⟩
  refine ⟨?_, ?_, ?_, ?_, ?_, ?_, ?_⟩
  · intro w'; rw [(same w').1]; exact h.links w'
  · intro w'; rw [(same w').2.1]; exact h.closed w'
  · intro w' b'' hb''
    obtain ⟨_, hb3⟩ := hc hb''
    unfold St.inn
    rw [(same w').2.2.1]
    exact h.open' w' _ hb3
  · intro w' b'' hb'' he
    obtain ⟨_, hb3⟩ := hc hb''
    unfold St.out at he
    rw [(same w'.flip).2.2.2.1] at he
    exact hd' _ (h.ended w' _ hb3 he)
  · intro w' hdl
    unfold St.out at hdl
    rw [(same w'.flip).2.2.2.2.1] at hdl
    exact hd' _ (h.timer w' hdl)
  · intro w' hx
    rw [(same w').2.2.2.2.2.1] at hx
    rw [(same w').2.2.2.2.1]
    exact h.tick w' hx
  · intro hcalm w' hw'
    have hcalm' : ∀ w, (s.side w).reset = false ∧ (s.side w).stop = false ∧ (s.side w).lost = false := by
      intro w''
      have := hcalm w''
      rw [(same w'').2.2.2.2.2.2.1, (same w'').2.2.2.2.2.2.2.1, (same w'').2.2.2.2.2.2.2.2] at this
      exact this
    rcases h.half hcalm' w' (hd _ hw') with h' | h'
    · refine .inl ?_
      unfold St.out
      rw [(same w'.flip).2.2.2.2.1]; exact h'
    · exact .inr (hd' _ h')

theorem endsQ_step (c : Cfg) (hc : ∀ w, c.closeWhenDone w = false) (s : St) (o : Op) (h : EndsQ s) : EndsQ (s.step c o) := by
  have hon : ∀ (w : Which) (f : Side → Side), (∀ x, (f x).link = x.link ∧ (f x).closed = x.closed ∧
      (f x).rclosed = x.rclosed ∧ (f x).ended = x.ended ∧ (f x).deadline = x.deadline ∧
      ((f x).expired = true → x.expired = true ∨ x.deadline = true) ∧
      ((f x).reset = false ∧ (f x).stop = false ∧ (f x).lost = false →
        x.reset = false ∧ x.stop = false ∧ x.lost = false)) → EndsQ (s.onSide w f) := by
    intro w f hf
    have hs : ∀ w', ((s.onSide w f).side w').link = (s.side w').link ∧
        ((s.onSide w f).side w').closed = (s.side w').closed ∧
        ((s.onSide w f).side w').rclosed = (s.side w').rclosed ∧
        ((s.onSide w f).side w').ended = (s.side w').ended ∧
        ((s.onSide w f).side w').deadline = (s.side w').deadline ∧
        (((s.onSide w f).side w').expired = true → (s.side w').expired = true ∨ (s.side w').deadline = true) ∧
        (((s.onSide w f).side w').reset = false ∧ ((s.onSide w f).side w').stop = false ∧
          ((s.onSide w f).side w').lost = false →
          (s.side w').reset = false ∧ (s.side w').stop = false ∧ (s.side w').lost = false) := by
      intro w'
      unfold St.onSide
      dsimp only
      split
      · exact hf _
      · exact ⟨rfl, rfl, rfl, rfl, rfl, .inl, id⟩
    refine ⟨?_, ?_, ?_, ?_, ?_, ?_, ?_⟩
    · intro w'; rw [(hs w').1]; exact h.links w'
    · intro w'; rw [(hs w').2.1]; exact h.closed w'
    · intro w' b hb
      unfold St.inn
      rw [(hs w').2.2.1]; exact h.open' w' b hb
    · intro w' b hb he
      unfold St.out at he
      rw [(hs w'.flip).2.2.2.1] at he; exact h.ended w' b hb he
    · intro w' hd
      unfold St.out at hd
      rw [(hs w'.flip).2.2.2.2.1] at hd; exact h.timer w' hd
    · intro w' hx
      rw [(hs w').2.2.2.2.1]
      rcases (hs w').2.2.2.2.2.1 hx with h' | h'
      · exact h.tick w' h'
      · exact h'
    · intro hcalm w' hw'
      have := h.half (fun w => (hs w).2.2.2.2.2.2 (hcalm w)) w' hw'
      unfold St.out at this ⊢
      rw [(hs w'.flip).2.2.2.2.1]; exact this
  cases o with
  | peerSend w b =>
    unfold St.step; dsimp only
    refine hon w _ (fun x => ?_)
    split <;> exact ⟨rfl, rfl, rfl, rfl, rfl, .inl, id⟩
  | peerFin w =>
    unfold St.step; dsimp only
    refine hon w _ (fun x => ?_)
    split <;> exact ⟨rfl, rfl, rfl, rfl, rfl, .inl, id⟩
  | peerReset w =>
    unfold St.step; dsimp only
    refine hon w _ (fun x => ?_)
    split
    · exact ⟨rfl, rfl, rfl, rfl, rfl, .inl, (fun h => by have := h.1; cases this)⟩
    · exact ⟨rfl, rfl, rfl, rfl, rfl, .inl, id⟩
  | peerStop w =>
    unfold St.step
    exact hon w (fun x => { x with stop := true }) (fun x =>
      ⟨rfl, rfl, rfl, rfl, rfl, .inl, (fun h => by have := h.2.1; cases this)⟩)
  | lose w =>
    unfold St.step
    exact hon w (fun x => { x with lost := true }) (fun x =>
      ⟨rfl, rfl, rfl, rfl, rfl, .inl, (fun h => by have := h.2.2; cases this)⟩)
  | expire w =>
    unfold St.step; dsimp only
    refine hon w _ (fun x => ?_)
    split
    · rename_i hd; exact ⟨rfl, rfl, rfl, rfl, rfl, fun _ => .inr hd, id⟩
    · exact ⟨rfl, rfl, rfl, rfl, rfl, .inl, id⟩
  | read w n =>
    unfold St.step
    dsimp only
    rw [hc w]
    split
    · rename_i hb
      split
      · rename_i hre
        refine endsQ_finish h w _ true [] hb ?_
        intro hcalm _
        obtain ⟨r1, r2, r3⟩ := hcalm w
        unfold Side.readErr at hre
        split at hre
        · cases hre
        · have h1 := h.open' w [] hb
          have h2 := h.closed w
          unfold St.inn at hre h1
          rw [h2, h1, r3, r1] at hre
          have hx := h.tick w hre
          exact h.timer w.flip (by rw [out_flip]; exact hx)
      · split
        · exact endsQ_copy h w _ _ [] _ hb rfl rfl
        · split
          · exact endsQ_finish h w _ false [] hb (fun _ h => by cases h)
          · exact h
    · exact h
  | write w n =>
    unfold St.step
    dsimp only
    rw [hc w]
    split
    · rename_i b bs hb
      split
      · rename_i hwe
        refine endsQ_finish h w _ true _ hb ?_
        intro hcalm _
        obtain ⟨r1, r2, r3⟩ := hcalm w.flip
        unfold Side.writeErr at hwe
        split at hwe
        · rename_i hl
          have := h.links w.flip
          unfold St.out at hl
          rw [hl] at this; cases this
        · unfold St.out at hwe
          rw [r2, r3, Bool.or_false, Bool.or_false] at hwe
          exact h.ended w _ hb hwe
      · exact endsQ_copy h w _ _ _ _ hb rfl rfl
    · exact h

/-- C120, in part, for two QUIC streams: as long as nothing is broken off, and unless one end ends the connection by
configuration. -/
theorem ends_quic_partial (c : Cfg) (hc : ∀ w, c.closeWhenDone w = false) (ops : List Op)
    (hq : Spec.Quiet c ((init .quic .quic).run c ops)) (w : Which) (hd : Spec.Done ((init .quic .quic).run c ops) w)
    (hcalm : ∀ w', (((init .quic .quic).run c ops).side w').reset = false ∧
      (((init .quic .quic).run c ops).side w').stop = false ∧ (((init .quic .quic).run c ops).side w').lost = false)
    (ht : ∀ w', (((init .quic .quic).run c ops).side w').deadline = true →
      (((init .quic .quic).run c ops).side w').expired = true) :
    ∀ w', Spec.Done ((init .quic .quic).run c ops) w' := by
  have key : EndsQ ((init .quic .quic).run c ops) := by
    have : ∀ (ops : List Op) (s : St), EndsQ s → EndsQ (s.run c ops) := by
      intro ops
      induction ops with
      | nil => exact fun _ h => h
      | cons o os ih => exact fun s h => ih _ (endsQ_step c hc s o h)
    refine this ops _ ⟨?_, fun _ => rfl, fun _ _ _ => rfl, ?_, ?_, ?_, ?_⟩
    · intro w; cases w <;> rfl
    · intro w b _ h; cases h
    · intro w h; cases h
    · intro w h; cases h
    · intro _ w ⟨e, he⟩; cases he
  generalize (init .quic .quic).run c ops = s at hq hd ht key hcalm
  intro w'
  rcases eq_or_flip w w' with rfl | rfl
  · exact hd
  rcases key.half hcalm w hd with h | h
  · refine quiet_done hq ?_
    rw [inn_flip]
    have hl : (s.out w).link = .quic := key.links w.flip
    have hx : (s.out w).expired = true := ht w.flip h
    unfold Side.readErr
    rw [hl]
    simp [hx]
  · exact h

/-- C120 is violated where a QUIC stream is involved. First, the client breaks off its stream: the proxy ends the
server's stream, but goes on waiting for what the server may send to a client that has gone. Second, the server ends a
TCP connection, which is to end everything: the proxy goes on waiting for the client to end its stream. No deadline is
set, and the other peer was told nothing, or nothing that requires it to do anything. -/
theorem ends_violated :
    (∃ ops, let s := (init .quic .quic).run (Cfg.quicDefaults {}) ops
      Spec.Quiet (Cfg.quicDefaults {}) s ∧ Spec.Done s .up ∧ ¬ Spec.Done s .down ∧ ∀ w, (s.side w).deadline = false) ∧
    (∃ ops, let s := (init .quic .tls).run {} ops
      Spec.Quiet {} s ∧ Spec.Done s .down ∧ ¬ Spec.Done s .up ∧ (∀ w, (s.side w).deadline = false) ∧
        ∀ w, Spec.Undisturbed (s.side w)) := by
  refine ⟨⟨[.peerReset .up, .read .up 0], ?_, ⟨true, by rfl⟩, ?_, ?_⟩,
    ⟨[.peerFin .down, .read .down 0], ?_, ⟨false, by rfl⟩, ?_, ?_, ?_⟩⟩
  · intro w n; cases w <;> exact ⟨rfl, rfl⟩
  · rintro ⟨e, he⟩
    have : ∀ e, ¬ ((init .quic .quic).run (Cfg.quicDefaults {}) [.peerReset .up, .read .up 0]).dir .down = .returned e := by
      intro e; cases e <;> decide +kernel
    exact this e he
  · intro w; cases w <;> rfl
  · intro w n; cases w <;> exact ⟨rfl, rfl⟩
  · rintro ⟨e, he⟩
    have : ∀ e, ¬ ((init .quic .tls).run {} [.peerFin .down, .read .down 0]).dir .up = .returned e := by
      intro e; cases e <;> decide +kernel
    exact this e he
  · intro w; cases w <;> rfl
  · intro w; cases w <;> exact ⟨rfl, rfl, rfl, rfl⟩

/-- The hypotheses of `ends_partial` are met: a client has ended its stream, the server says nothing, and the time
has passed; the relay is over. -/
example : let s := (init .tls .tcp).run {} [.peerSend .up [1], .read .up 0, .write .up 0, .peerFin .up, .read .up 0,
      .expire .down, .read .down 0]
    Spec.Quiet {} s ∧ Spec.Done s .up ∧ (s.side .down).deadline = true ∧
      (∀ w, (s.side w).deadline = true → (s.side w).expired = true) := by
  refine ⟨?_, ⟨false, by rfl⟩, rfl, ?_⟩
  · intro w n; cases w <;> exact ⟨rfl, rfl⟩
  · intro w; cases w <;> decide +kernel

/-- The hypotheses of `ends_quic_partial` are met. -/
example : let s := (init .quic .quic).run (Cfg.quicDefaults {}) [.peerSend .up [1], .read .up 0, .write .up 0, .peerFin .up,
      .read .up 0, .expire .down, .read .down 0]
    (∀ w, (Cfg.quicDefaults {}).closeWhenDone w = false) ∧ Spec.Quiet (Cfg.quicDefaults {}) s ∧ Spec.Done s .up ∧
      (∀ w, (s.side w).reset = false ∧ (s.side w).stop = false ∧ (s.side w).lost = false) ∧
      (∀ w, (s.side w).deadline = true → (s.side w).expired = true) := by
  refine ⟨?_, ?_, ⟨false, by rfl⟩, ?_, ?_⟩
  · intro w; cases w <;> rfl
  · intro w n; cases w <;> exact ⟨rfl, rfl⟩
  · intro w; cases w <;> exact ⟨rfl, rfl, rfl⟩
  · intro w; cases w <;> decide +kernel

/-! ## How a connection is closed -/

/-- When the peer learns from `Close` that the end is in order: the connection is there, a TCP connection has no data
left that nobody read, and the peer of a QUIC stream still wants data. -/
def Spec.InOrder (x : Side) : Prop :=
  x.lost = false ∧ (x.link = .tcp → x.sent.length ≤ x.taken) ∧ (x.link = .quic ∨ x.link = .send → x.stop = false)

/-- C119 (both ends). When the copying from one side fails, or the settings end both directions together,
both sides are closed, each in order exactly if nothing is in the way of that; nobody is left without an end. -/
theorem close_both (cw : Bool) (s : St) (w : Which) (err : Bool) (h : err = true ∨ cw = true)
    (w' : Which) (hl : (s.side w').link ≠ .recv) (he : (s.side w').ended = none) :
    ((s.finish cw w (s.inn w) (s.out w) err).side w').ended ≠ none ∧
    (((s.finish cw w (s.inn w) (s.out w) err).side w').ended = some .orderly ↔ Spec.InOrder (s.side w')) := by
  have hside : (s.finish cw w (s.inn w) (s.out w) err).side w' = (s.side w').close := by
    unfold St.finish finishSides
    rw [if_pos h]
    rcases eq_or_flip w w' with rfl | rfl
    · simp [St.set, St.inn]
    · simp [St.set, St.out, flip_ne]
  rw [hside]
  generalize s.side w' = x at *
  unfold Side.close Side.endAs Spec.InOrder
  cases hk : x.link with
  | tcp => by_cases h1 : x.lost = true ∨ x.taken < x.sent.length
           · simp only [if_pos h1, he, Option.none_or]
             refine ⟨by simp, by simp, ?_⟩
             rintro ⟨h2, h3, -⟩
             rcases h1 with h1 | h1
             · rw [h2] at h1; cases h1
             · have := h3 trivial; omega
           · simp only [if_neg h1, he, Option.none_or]
             simp only [not_or, Nat.not_lt] at h1
             exact ⟨by simp, fun _ => ⟨by simpa using h1.1, fun _ => h1.2, by simp⟩, fun _ => trivial⟩
  | tls => cases h1 : x.lost <;> simp [he]
  | quic => cases h1 : x.lost <;> cases h2 : x.stop <;> simp [he]
  | send => cases h1 : x.lost <;> cases h2 : x.stop <;> simp [he]
  | recv => exact absurd hk hl

/-- Non-vacuity: a TCP connection of which everything was read is closed in order, and one with data left is reset. -/
example : Spec.InOrder { link := .tcp, sent := [1, 2], taken := 2 } ∧ ¬ Spec.InOrder { link := .tcp, sent := [1, 2], taken := 1 } ∧
    ¬ Spec.InOrder { link := .quic, stop := true } := by
  refine ⟨⟨rfl, fun _ => by decide, by simp⟩, fun h => absurd (h.2.1 rfl) (by decide), fun h => absurd (h.2.2 (.inl rfl)) (by decide)⟩

/-- When the proxy can tell a peer that nothing more follows, and still receive from it. -/
def Spec.CanEnd (x : Side) : Prop :=
  (x.link = .tcp ∨ x.link = .tls → x.lost = false ∧ x.closed = false) ∧ (x.link = .quic ∨ x.link = .send → x.stop = false)

/-- When the proxy can stop receiving and still send. -/
def Spec.CanStop (x : Side) : Prop := x.link = .tcp → x.lost = false ∧ x.closed = false

theorem closeWrite_iff (x : Side) : x.closeWrite.isSome = true ↔ Spec.CanEnd x := by
  unfold Side.closeWrite Spec.CanEnd
  cases hk : x.link <;> cases h1 : x.lost <;> cases h2 : x.closed <;> cases h3 : x.stop <;> simp

theorem closeRead_iff (x : Side) : x.closeRead.isSome = true ↔ Spec.CanStop x := by
  unfold Side.closeRead Spec.CanStop
  cases hk : x.link <;> cases h1 : x.lost <;> cases h2 : x.closed <;> simp

/-- C119 (one end). When one side has ended in order and the settings let the other direction go on: if the end can be
passed on, nothing is closed entirely, nothing more is read from the side that ended (where the connection allows to
say so) and the other peer learns that nothing more follows, in order if the connection is there. -/
theorem half_close (s : St) (w : Which) (ho : Spec.CanEnd (s.out w)) (hi : Spec.CanStop (s.inn w)) :
    (∀ w', ((s.finish false w (s.inn w) (s.out w) false).side w').closed = (s.side w').closed) ∧
    ((s.inn w).link = .tcp ∨ (s.inn w).link = .quic ∨ (s.inn w).link = .recv →
      ((s.finish false w (s.inn w) (s.out w) false).inn w).rclosed = true) ∧
    ((s.inn w).ended = ((s.finish false w (s.inn w) (s.out w) false).inn w).ended) ∧
    ((s.out w).link ≠ .recv → (s.out w).ended = none →
      ((s.finish false w (s.inn w) (s.out w) false).out w).ended = some (if (s.out w).lost then .abort else .orderly)) ∧
    ((s.out w).link ≠ .send → ((s.finish false w (s.inn w) (s.out w) false).out w).deadline = true) := by
  have hout := (closeWrite_iff _).2 ho
  have hinn := (closeRead_iff _).2 hi
  obtain ⟨o, heo⟩ := Option.isSome_iff_exists.1 hout
  obtain ⟨i, hei⟩ := Option.isSome_iff_exists.1 hinn
  have hf : finishSides false (s.inn w) (s.out w) false = (i, o.setDeadline) := by
    unfold finishSides
    rw [if_neg (by simp), heo]
    dsimp only
    rw [hei]
  have h1 : (s.finish false w (s.inn w) (s.out w) false).side w = i := by
    unfold St.finish; rw [hf]; simp [St.set]
  have h2 : (s.finish false w (s.inn w) (s.out w) false).side w.flip = o.setDeadline := by
    unfold St.finish; rw [hf]; simp [St.set, flip_ne]
  refine ⟨fun w' => ?_, ?_, ?_, ?_, ?_⟩
  · rcases eq_or_flip w w' with rfl | rfl
    · rw [h1]; exact closeRead_closed hei
    · rw [h2, (setDeadline_fields o).2.1]; exact closeWrite_closed heo
  · intro hl
    show ((s.finish false w (s.inn w) (s.out w) false).side w).rclosed = true
    rw [h1]
    revert hei
    unfold Side.closeRead
    rcases hl with hl | hl | hl <;> rw [hl] <;> dsimp only
    · split
      · intro h; cases h
      · intro h; cases h; rfl
    · intro h; cases h; rfl
    · intro h; cases h; rfl
  · show _ = ((s.finish false w (s.inn w) (s.out w) false).side w).ended
    rw [h1]
    revert hei
    unfold Side.closeRead
    cases (s.inn w).link <;> dsimp only
    · split
      · intro h; cases h
      · intro h; cases h; rfl
    all_goals (intro h; cases h; rfl)
  · intro hl he
    show ((s.finish false w (s.inn w) (s.out w) false).side w.flip).ended = _
    rw [h2, (setDeadline_fields o).1]
    revert heo
    unfold Side.closeWrite Side.endAs
    cases hk : (s.out w).link <;> dsimp only
    case recv => exact absurd hk hl
    case tcp => rw [(ho.1 (.inl hk)).1, (ho.1 (.inl hk)).2]; intro h; cases h; simp [he]
    case tls => rw [(ho.1 (.inr hk)).1, (ho.1 (.inr hk)).2]; intro h; cases h; simp [he]
    case quic => rw [ho.2 (.inl hk)]; intro h; cases h; simp [he]
    case send => rw [ho.2 (.inr hk)]; intro h; cases h; simp [he]
  · intro hl
    show ((s.finish false w (s.inn w) (s.out w) false).side w.flip).deadline = true
    rw [h2]
    exact setDeadline_set (by rw [(closeWrite_same heo).1] ; exact hl)

/-- C119 (one end, refused). If the end cannot be passed on, or the side that ended cannot be told, both sides are
closed: connections entirely, and each peer that is sent data learns of an end. -/
theorem half_close_refused (s : St) (w : Which) (h : ¬ (Spec.CanEnd (s.out w) ∧ Spec.CanStop (s.inn w))) (w' : Which) :
    ((s.side w').link.whole → ((s.finish false w (s.inn w) (s.out w) false).side w').closed = true) ∧
    ((s.side w').link ≠ .recv → ((s.finish false w (s.inn w) (s.out w) false).side w').ended ≠ none) := by
  have hce : ∀ x : Side, x.link ≠ .recv → x.close.ended ≠ none := by
    intro x hx
    unfold Side.close Side.endAs
    cases hk : x.link <;> dsimp only <;> first | exact absurd hk hx | (cases x.ended <;> simp)
  cases hw : (s.out w).closeWrite with
  | none =>
    have hf : finishSides false (s.inn w) (s.out w) false = ((s.inn w).close, (s.out w).close) := by
      unfold finishSides; rw [if_neg (by simp), hw]
    have hs : (s.finish false w (s.inn w) (s.out w) false).side w' = (s.side w').close := by
      unfold St.finish; rw [hf]
      rcases eq_or_flip w w' with rfl | rfl
      · simp [St.set, St.inn]
      · simp [St.set, St.out, flip_ne]
    rw [hs]
    exact ⟨(close_closed _).1, hce _⟩
  | some o =>
    have hr : (s.inn w).closeRead = none := by
      cases hr : (s.inn w).closeRead with
      | none => rfl
      | some i => exact absurd ⟨(closeWrite_iff _).1 (by rw [hw]; rfl), (closeRead_iff _).1 (by rw [hr]; rfl)⟩ h
    have hf : finishSides false (s.inn w) (s.out w) false = ((s.inn w).close, o.close) := by
      unfold finishSides; rw [if_neg (by simp), hw]; dsimp only; rw [hr]
    have hl : o.link = (s.out w).link := (closeWrite_same hw).1
    unfold St.finish; rw [hf]
    rcases eq_or_flip w w' with rfl | rfl
    · simp only [St.set, if_pos, St.inn]
      exact ⟨(close_closed _).1, hce _⟩
    · simp only [St.set, flip_ne, if_false]
      exact ⟨fun hk => (close_closed _).1 (by rw [hl]; exact hk), fun hk => hce _ (by rw [hl]; exact hk)⟩

/-- Non-vacuity: the end of one stream is passed on to a QUIC peer, and not to one that wants no more data or to a TCP
connection that is lost. -/
example : Spec.CanEnd { link := .quic } ∧ Spec.CanStop { link := .tls, lost := true } ∧ ¬ Spec.CanEnd { link := .quic, stop := true } ∧
    ¬ Spec.CanEnd { link := .tcp, lost := true } ∧ ¬ Spec.CanStop { link := .tcp, closed := true } := by
  refine ⟨⟨by simp, by simp⟩, by simp [Spec.CanStop], ?_, ?_, ?_⟩ <;> simp [Spec.CanEnd, Spec.CanStop]

/-! ## One-way streams -/

theorem step_recv (c : Cfg) (s : St) (o : Op) (h : ∀ w', (s.side w').link = .recv → (s.side w').written = []) :
    ∀ w', ((s.step c o).side w').link = .recv → ((s.step c o).side w').written = [] := by
  have hset : ∀ (w : Which) (i o : Side) (d : Dir), (i.link = .recv → i.written = []) → (o.link = .recv → o.written = []) →
      ∀ w', ((s.set w i o d).side w').link = .recv → ((s.set w i o d).side w').written = [] := by
    intro w i o d hi ho w'
    rcases eq_or_flip w w' with rfl | rfl
    · simpa [St.set] using hi
    · simpa [St.set, flip_ne] using ho
  have hfin : ∀ (cw : Bool) (w : Which) (i o : Side) (e : Bool), (i.link = .recv → i.written = []) →
      (o.link = .recv → o.written = []) →
      ∀ w', ((s.finish cw w i o e).side w').link = .recv → ((s.finish cw w i o e).side w').written = [] := by
    intro cw w i o e hi ho
    have := finish_same cw i o e
    exact hset w _ _ _ (fun hl => by rw [this.1.written]; exact hi (this.1.link ▸ hl))
      (fun hl => by rw [this.2.written]; exact ho (this.2.link ▸ hl))
  have hon : ∀ (w : Which) (f : Side → Side), (∀ x, (f x).link = x.link ∧ (f x).written = x.written) →
      ∀ w', ((s.onSide w f).side w').link = .recv → ((s.onSide w f).side w').written = [] := by
    intro w f hf w'
    unfold St.onSide
    dsimp only
    split
    · rw [(hf _).1, (hf _).2]; exact h w'
    · exact h w'
  cases o with
  | peerSend w b =>
    unfold St.step; dsimp only
    refine hon w _ (fun x => ?_)
    split <;> exact ⟨rfl, rfl⟩
  | peerFin w =>
    unfold St.step; dsimp only
    refine hon w _ (fun x => ?_)
    split <;> exact ⟨rfl, rfl⟩
  | peerReset w =>
    unfold St.step; dsimp only
    refine hon w _ (fun x => ?_)
    split <;> exact ⟨rfl, rfl⟩
  | peerStop w => unfold St.step; exact hon w (fun x => { x with stop := true }) (fun x => ⟨rfl, rfl⟩)
  | lose w => unfold St.step; exact hon w (fun x => { x with lost := true }) (fun x => ⟨rfl, rfl⟩)
  | expire w =>
    unfold St.step; dsimp only
    refine hon w _ (fun x => ?_)
    split <;> exact ⟨rfl, rfl⟩
  | read w n =>
    unfold St.step
    dsimp only
    split
    · split
      · exact hfin _ _ _ _ _ (h w) (h w.flip)
      · split
        · exact hset _ _ _ _ (h w) (h w.flip)
        · split
          · exact hfin _ _ _ _ _ (h w) (h w.flip)
          · exact h
    · exact h
  | write w n =>
    unfold St.step
    dsimp only
    split
    · split
      · refine hfin _ _ _ _ _ (h w) (fun hl => ?_)
        have hl' : (s.out w).link = .recv := hl
        have hw : (s.out w).written = [] := h w.flip hl
        dsimp only
        rw [hw, if_pos (.inr hl')]
        rfl
      · rename_i hne
        refine hset _ _ _ _ (h w) (fun hl => ?_)
        have hl' : (s.out w).link = .recv := hl
        exact absurd (by unfold Side.writeErr; rw [hl']) hne
    · exact h

/-- C119 (one-way streams). Whatever it is relayed with, nothing is ever written to a stream that the peer opened for
sending only. -/
theorem recv_unwritten (c : Cfg) (cl sv : Link) (ops : List Op) (w : Which)
    (h : Spec.to cl sv w = .recv) : (((init cl sv).run c ops).out w).written = [] := by
  have h0 : ∀ w', ((init cl sv).side w').link = .recv → ((init cl sv).side w').written = [] := fun _ _ => rfl
  have hl0 : ∀ w', ((init cl sv).side w').link = Spec.from' cl sv w' := by intro w'; cases w' <;> rfl
  suffices H : ∀ (ops : List Op) (s : St), (∀ w', (s.side w').link = Spec.from' cl sv w') →
      (∀ w', (s.side w').link = .recv → (s.side w').written = []) →
      ((s.run c ops).side w.flip).link = Spec.from' cl sv w.flip ∧
      (((s.run c ops).side w.flip).link = .recv → ((s.run c ops).side w.flip).written = []) by
    obtain ⟨h1, h2⟩ := H ops _ hl0 h0
    exact h2 (h1.trans h)
  intro ops
  induction ops with
  | nil => intro s hl hs; exact ⟨hl _, hs _⟩
  | cons o ops ih => intro s hl hs; exact ih (s.step c o) (step_link c s o hl) (step_recv c s o hs)

/-- Non-vacuity: the backend sends data on a two-way stream that is relayed to a one-way one; copying it fails. -/
example : Spec.to .recv .quic .down = .recv ∧
    ((init .recv .quic).run {} [.peerSend .down [1, 2], .read .down 5, .write .down 0]).dir .down = .returned true := by
  exact ⟨rfl, by decide +kernel⟩

/-! ## After the end -/

theorem close_ended_same (x : Side) (h : x.ended.isSome = true) : x.close.ended = x.ended := by
  obtain ⟨e, he⟩ := Option.isSome_iff_exists.1 h
  unfold Side.close Side.endAs
  cases x.link <;> simp [he]

theorem finish_ended_same (cw : Bool) (i o : Side) (e : Bool) :
    (i.ended.isSome = true → (finishSides cw i o e).1.ended = i.ended) ∧
    (o.ended.isSome = true → (finishSides cw i o e).2.ended = o.ended) := by
  have hcw : ∀ {x y : Side}, x.closeWrite = some y → x.ended.isSome = true → y.ended = x.ended := by
    intro x y h hs
    obtain ⟨e, he⟩ := Option.isSome_iff_exists.1 hs
    revert h
    unfold Side.closeWrite Side.endAs
    cases x.link <;> dsimp only <;> first
      | (intro h; cases h; rfl)
      | (split
         · intro h; cases h
         · intro h; cases h; simp [he])
  have hcr : ∀ {x y : Side}, x.closeRead = some y → y.ended = x.ended := by
    intro x y h
    revert h
    unfold Side.closeRead
    cases x.link <;> dsimp only <;> first
      | (intro h; cases h; rfl)
      | (split
         · intro h; cases h
         · intro h; cases h; rfl)
  unfold finishSides
  split
  · exact ⟨close_ended_same _, close_ended_same _⟩
  · split
    · exact ⟨close_ended_same _, close_ended_same _⟩
    · rename_i o' ho
      split
      · exact ⟨close_ended_same _, fun h => (close_ended_same _ (by rw [hcw ho h]; exact h)).trans (hcw ho h)⟩
      · rename_i i' hi
        exact ⟨fun _ => hcr hi, fun h => (setDeadline_fields o').1.trans (hcw ho h)⟩

theorem step_ended (c : Cfg) (s : St) (o : Op) (w' : Which) (h : (s.side w').ended.isSome = true) :
    ((s.step c o).side w').ended = (s.side w').ended ∧ ((s.step c o).side w').written = (s.side w').written := by
  have hset : ∀ (w : Which) (i o : Side) (d : Dir),
      ((s.inn w).ended.isSome = true → i.ended = (s.inn w).ended ∧ i.written = (s.inn w).written) →
      ((s.out w).ended.isSome = true → o.ended = (s.out w).ended ∧ o.written = (s.out w).written) →
      ((s.set w i o d).side w').ended = (s.side w').ended ∧ ((s.set w i o d).side w').written = (s.side w').written := by
    intro w i o d hi ho
    rcases eq_or_flip w w' with rfl | rfl
    · simpa [St.set, St.inn] using hi h
    · simpa [St.set, flip_ne, St.out] using ho h
  have hfin : ∀ (cw : Bool) (w : Which) (o : Side) (e : Bool),
      ((s.out w).ended.isSome = true → o.ended = (s.out w).ended ∧ o.written = (s.out w).written) →
      ((s.finish cw w (s.inn w) o e).side w').ended = (s.side w').ended ∧
      ((s.finish cw w (s.inn w) o e).side w').written = (s.side w').written := by
    intro cw w o e ho
    have h1 := finish_same cw (s.inn w) o e
    have h2 := finish_ended_same cw (s.inn w) o e
    exact hset w _ _ _ (fun hs => ⟨h2.1 hs, h1.1.written⟩)
      (fun hs => ⟨(h2.2 (by rw [(ho hs).1]; exact hs)).trans (ho hs).1, h1.2.written.trans (ho hs).2⟩)
  have hon : ∀ (w : Which) (f : Side → Side), (∀ x, (f x).ended = x.ended ∧ (f x).written = x.written) →
      ((s.onSide w f).side w').ended = (s.side w').ended ∧ ((s.onSide w f).side w').written = (s.side w').written := by
    intro w f hf
    unfold St.onSide
    dsimp only
    split
    · exact hf _
    · exact ⟨rfl, rfl⟩
  cases o with
  | peerSend w b =>
    unfold St.step; dsimp only
    refine hon w _ (fun x => ?_)
    split <;> exact ⟨rfl, rfl⟩
  | peerFin w =>
    unfold St.step; dsimp only
    refine hon w _ (fun x => ?_)
    split <;> exact ⟨rfl, rfl⟩
  | peerReset w =>
    unfold St.step; dsimp only
    refine hon w _ (fun x => ?_)
    split <;> exact ⟨rfl, rfl⟩
  | peerStop w => unfold St.step; exact hon w (fun x => { x with stop := true }) (fun x => ⟨rfl, rfl⟩)
  | lose w => unfold St.step; exact hon w (fun x => { x with lost := true }) (fun x => ⟨rfl, rfl⟩)
  | expire w =>
    unfold St.step; dsimp only
    refine hon w _ (fun x => ?_)
    split <;> exact ⟨rfl, rfl⟩
  | read w n =>
    unfold St.step
    dsimp only
    split
    · split
      · exact hfin _ _ _ _ (fun _ => ⟨rfl, rfl⟩)
      · split
        · exact hset _ _ _ _ (fun _ => ⟨rfl, rfl⟩) (fun _ => ⟨rfl, rfl⟩)
        · split
          · exact hfin _ _ _ _ (fun _ => ⟨rfl, rfl⟩)
          · exact ⟨rfl, rfl⟩
    · exact ⟨rfl, rfl⟩
  | write w n =>
    unfold St.step
    dsimp only
    split
    · split
      · refine hfin _ _ _ _ (fun hs => ⟨rfl, ?_⟩)
        dsimp only
        rw [if_pos (.inl hs)]
        simp
      · rename_i hne
        refine hset _ _ _ _ (fun _ => ⟨rfl, rfl⟩) (fun hs => absurd ?_ hne)
        unfold Side.writeErr
        cases (s.out w).link <;> simp [hs]
    · exact ⟨rfl, rfl⟩

/-- C119 (after the end). Once a peer has been told that nothing more follows, or its stream has been broken off,
that stays so and it is sent nothing more. -/
theorem after_end (c : Cfg) (s : St) (ops : List Op) (w : Which) (h : (s.side w).ended ≠ none) :
    ((s.run c ops).side w).ended = (s.side w).ended ∧ ((s.run c ops).side w).written = (s.side w).written := by
  induction ops generalizing s with
  | nil => exact ⟨rfl, rfl⟩
  | cons o ops ih =>
    have hs := step_ended c s o w (by cases he : (s.side w).ended <;> simp_all)
    obtain ⟨h1, h2⟩ := ih (s.step c o) (by rw [hs.1]; exact h)
    exact ⟨h1.trans hs.1, h2.trans hs.2⟩

/-- Non-vacuity: the backend has ended its stream, and what it sent was relayed; the client then goes on sending. -/
example : (((init .tls .tls).run { serverCloseEnds := some false }
    [.peerSend .down [1, 2], .read .down 5, .write .down 0, .peerFin .down, .read .down 5]).side .up).ended = some .orderly ∧
    (((init .tls .tls).run { serverCloseEnds := some false }
    [.peerSend .down [1, 2], .read .down 5, .write .down 0, .peerFin .down, .read .down 5]).side .up).written = [1, 2] := by
  decide +kernel

end Verif.Relay
