import Verif.Model.Bridge
/-
C17.
-/
namespace Verif.Bridge

/-! ## Helpers -/

@[simp] theorem inn_set (s : St) (w : Which) (i o : Side) (d : Dir) : (s.set w i o d).inn w = i := by
  cases w <;> rfl
@[simp] theorem out_set (s : St) (w : Which) (i o : Side) (d : Dir) : (s.set w i o d).out w = o := by
  cases w <;> rfl
@[simp] theorem dir_set (s : St) (w : Which) (i o : Side) (d : Dir) : (s.set w i o d).dir w = d := by
  cases w <;> rfl

def Which.flip : Which → Which
  | .up => .down
  | .down => .up

@[simp] theorem inn_flip (s : St) (w : Which) : s.inn w.flip = s.out w := by cases w <;> rfl
@[simp] theorem out_flip (s : St) (w : Which) : s.out w.flip = s.inn w := by cases w <;> rfl
@[simp] theorem flip_flip (w : Which) : w.flip.flip = w := by cases w <;> rfl
@[simp] theorem dir_set_flip (s : St) (w : Which) (i o : Side) (d : Dir) :
    (s.set w i o d).dir w.flip = s.dir w.flip := by cases w <;> rfl

/-- What holds of one direction. -/
structure DInv (cfg : Cfg) (s : St) (w : Which) : Prop where
  /-- bytes read are bytes written plus bytes buffered -/
  copying : ∀ buf, s.dir w = .copying buf →
    (s.inn w).sent.take (s.inn w).taken = (s.out w).written ++ buf ∧ (s.out w).wclosed = false
  returned : ∀ err, s.dir w = .returned err → (s.out w).written <+: (s.inn w).sent
  bound : (s.inn w).taken ≤ (s.inn w).sent.length
  complete : s.dir w = .returned false → (s.inn w).eof = true ∧ (s.out w).written = (s.inn w).sent
  ends : ∀ err, s.dir w = .returned err → err = true ∨ cfg.closeWhenDone w = true →
    (s.inn w).closed = true ∧ (s.out w).closed = true
  deadline : (s.out w).deadline = true → s.dir w = .returned false
  expired : (s.out w).expired = true → (s.out w).deadline = true

def Inv (cfg : Cfg) (s : St) : Prop := ∀ w, DInv cfg s w

theorem inv_init (cfg : Cfg) : Inv cfg {} := by
  intro w
  cases w <;> constructor <;> simp [St.inn, St.out, St.dir]

theorem take_append_chunk (l : Bytes) (t n : Nat) :
    l.take (t + ((l.drop t).take n).length) = l.take t ++ (l.drop t).take n := by
  rw [List.length_take, List.take_add]
  congr 1
  by_cases h : n ≤ (l.drop t).length
  · rw [Nat.min_eq_left h]
  · rw [Nat.min_eq_right (by omega), List.take_length, List.take_of_length_le (by omega)]

/-- Changing only what the peers control keeps the invariant. -/
theorem inv_peer {cfg : Cfg} {s : St} (h : Inv cfg s) (cl : Bool) (f : Side → Side)
    (hs : ∀ x : Side, (f x).written = x.written ∧ (f x).taken = x.taken ∧ (f x).closed = x.closed ∧
      (f x).wclosed = x.wclosed ∧ (f x).deadline = x.deadline ∧
      (x.eof = true → (f x).eof = true ∧ (f x).sent = x.sent) ∧ x.sent <+: (f x).sent ∧
      ((f x).expired = true → x.expired = true ∨ x.deadline = true)) :
    Inv cfg (onSide s cl f) := by
  have hdir : ∀ w, (onSide s cl f).dir w = s.dir w := by
    intro w; unfold onSide; cases cl <;> cases w <;> rfl
  have hside : ∀ w, (onSide s cl f).inn w = s.inn w ∧ (onSide s cl f).out w = f (s.out w) ∨
      (onSide s cl f).inn w = f (s.inn w) ∧ (onSide s cl f).out w = s.out w := by
    intro w
    unfold onSide
    cases cl <;> cases w
    · exact Or.inl ⟨rfl, rfl⟩
    · exact Or.inr ⟨rfl, rfl⟩
    · exact Or.inr ⟨rfl, rfl⟩
    · exact Or.inl ⟨rfl, rfl⟩
  intro w
  have hw := h w
  rcases hside w with ⟨e1, e2⟩ | ⟨e1, e2⟩
  · obtain ⟨a, b, c, d, e, g, i, j⟩ := hs (s.out w)
    refine ⟨?_, ?_, ?_, ?_, ?_, ?_, ?_⟩
    · intro buf; rw [hdir, e1, e2, a, d]; exact hw.copying buf
    · intro err; rw [hdir, e1, e2, a]; exact hw.returned err
    · rw [e1]; exact hw.bound
    · rw [hdir, e1, e2, a]; exact hw.complete
    · intro err; rw [hdir, e1, e2, c]; exact hw.ends err
    · rw [hdir, e2, e]; exact hw.deadline
    · rw [e2, e]
      intro hx
      rcases j hx with hj | hj
      · exact hw.expired hj
      · exact hj
  · obtain ⟨a, b, c, d, e, g, i, j⟩ := hs (s.inn w)
    refine ⟨?_, ?_, ?_, ?_, ?_, ?_, ?_⟩
    · intro buf hb
      rw [hdir] at hb
      obtain ⟨h1, h2⟩ := hw.copying buf hb
      rw [e1, e2, b]
      refine ⟨?_, h2⟩
      rw [← h1]
      obtain ⟨t, ht⟩ := i
      rw [← ht, List.take_append_of_le_length hw.bound]
    · intro err hr
      rw [hdir] at hr
      rw [e1, e2]
      exact (hw.returned err hr).trans i
    · rw [e1, b]; exact Nat.le_trans hw.bound i.length_le
    · intro hr
      rw [hdir] at hr
      obtain ⟨h1, h2⟩ := hw.complete hr
      rw [e1, e2]
      exact ⟨(g h1).1, by rw [h2, (g h1).2]⟩
    · intro err; rw [hdir, e1, e2, c]; exact hw.ends err
    · rw [hdir, e2]; exact hw.deadline
    · rw [e2]; exact hw.expired

/-- A step of direction `w` gives new sides and a new state of `w`; the other direction keeps
its invariant because what it reads from or writes to only changed as listed. -/
theorem inv_set {cfg : Cfg} {s : St} (h : Inv cfg s) (w : Which) (i o : Side) (d : Dir)
    (hw : DInv cfg (s.set w i o d) w)
    -- the side `w` reads from, to which the other direction writes
    (hi : i.written = (s.inn w).written ∧ (i.wclosed = (s.inn w).wclosed) ∧ i.deadline = (s.inn w).deadline ∧
      i.expired = (s.inn w).expired ∧ ((s.inn w).closed = true → i.closed = true))
    -- the side `w` writes to, from which the other direction reads
    (ho : o.sent = (s.out w).sent ∧ o.taken = (s.out w).taken ∧ o.eof = (s.out w).eof ∧
      ((s.out w).closed = true → o.closed = true)) :
    Inv cfg (s.set w i o d) := by
  intro v
  by_cases hv : v = w
  · subst hv; exact hw
  · have hv' : v = w.flip := by cases v <;> cases w <;> simp_all [Which.flip]
    subst hv'
    have hf := h w.flip
    have e1 : (s.set w i o d).inn w.flip = o := by rw [inn_flip, out_set]
    have e2 : (s.set w i o d).out w.flip = i := by rw [out_flip, inn_set]
    obtain ⟨a1, a2, a3, a4, a5⟩ := hi
    obtain ⟨b1, b2, b3, b4⟩ := ho
    have c := hf.copying; have r := hf.returned; have b := hf.bound; have k := hf.complete
    have en := hf.ends; have dl := hf.deadline; have ex := hf.expired
    simp only [inn_flip, out_flip] at c r b k en dl ex
    constructor
    · intro buf hb
      rw [dir_set_flip] at hb
      rw [e1, e2, a1, a2, b1, b2]
      exact c buf hb
    · intro err hr
      rw [dir_set_flip] at hr
      rw [e1, e2, a1, b1]; exact r err hr
    · rw [e1, b1, b2]; exact b
    · intro hr
      rw [dir_set_flip] at hr
      rw [e1, e2, a1, b1, b3]; exact k hr
    · intro err hr he
      rw [dir_set_flip] at hr
      rw [e1, e2]
      exact ⟨b4 (en err hr he).1, a5 (en err hr he).2⟩
    · rw [e2, a3, dir_set_flip]; exact dl
    · rw [e2, a3, a4]; exact ex

theorem inv_finish {cfg : Cfg} {s : St} (h : Inv cfg s) (w : Which) (out : Side) (buf : Bytes)
    (hd : s.dir w = .copying buf) (err halfOK : Bool)
    (ho : ∃ extra, out = { s.out w with written := (s.out w).written ++ extra } ∧ extra <+: buf)
    (heof : err = false → buf = [] ∧ (s.inn w).eof = true ∧ (s.inn w).taken = (s.inn w).sent.length) :
    Inv cfg (s.finish (cfg.closeWhenDone w) w (s.inn w) out err halfOK) := by
  obtain ⟨extra, rfl, hex⟩ := ho
  have hw := h w
  obtain ⟨h1, h2⟩ := hw.copying buf hd
  have hnd : (s.out w).deadline ≠ true := fun hh => by rw [hw.deadline hh] at hd; cases hd
  have hpre : (s.out w).written ++ extra <+: (s.inn w).sent := by
    have : (s.out w).written ++ extra <+: (s.inn w).sent.take (s.inn w).taken := by
      rw [h1]; exact List.prefix_append_right_inj _ |>.mpr hex
    exact this.trans (List.take_prefix _ _)
  have hfull : err = false → (s.inn w).eof = true ∧ (s.out w).written ++ extra = (s.inn w).sent := by
    intro he
    obtain ⟨rfl, e1, e2⟩ := heof he
    have : extra = [] := by simpa using hex
    subst this
    rw [e2, List.take_length, List.append_nil] at h1
    exact ⟨e1, by rw [h1, List.append_nil]⟩
  unfold St.finish
  split
  · rename_i hc
    apply inv_set h
    · constructor
      · intro b hb; rw [dir_set] at hb; cases hb
      · intro e _; rw [inn_set, out_set]; exact hpre
      · rw [inn_set]; exact hw.bound
      · intro hr
        rw [dir_set] at hr
        rw [inn_set, out_set]
        exact hfull (by simpa using hr)
      · intro e _ _; rw [inn_set, out_set]; exact ⟨rfl, rfl⟩
      · rw [out_set]; intro hh; exact absurd hh hnd
      · rw [out_set]; intro hh; exact absurd (hw.expired hh) hnd
    · simp
    · simp
  · rename_i hc
    have he : err = false := by
      cases err with
      | false => rfl
      | true => exact absurd (Or.inl rfl) hc
    have hcwd : cfg.closeWhenDone w ≠ true := fun hh => hc (Or.inr hh)
    split
    · rename_i hh
      apply inv_set h
      · constructor
        · intro b hb; rw [dir_set] at hb; cases hb
        · intro e _; rw [inn_set, out_set]; exact hpre
        · rw [inn_set]; exact hw.bound
        · intro _; rw [inn_set, out_set]; exact hfull he
        · intro e hr hor
          rw [dir_set] at hr; cases hr
          rcases hor with hor | hor
          · cases hor
          · exact absurd hor hcwd
        · intro _; rw [dir_set]
        · rw [out_set]; intro _; rfl
      · simp
      · simp
    · apply inv_set h
      · constructor
        · intro b hb; rw [dir_set] at hb; cases hb
        · intro e _; rw [inn_set, out_set]; exact hpre
        · rw [inn_set]; exact hw.bound
        · intro _; rw [inn_set, out_set]; exact hfull he
        · intro e hr hor
          rw [inn_set, out_set]; exact ⟨rfl, rfl⟩
        · rw [out_set]; intro hh; exact absurd hh hnd
        · rw [out_set]; intro hh; exact absurd (hw.expired hh) hnd
      · simp
      · simp

theorem inv_step {cfg : Cfg} {s : St} (h : Inv cfg s) (op : Op) : Inv cfg (s.step cfg op) := by
  cases op with
  | peerSend cl b =>
    simp only [St.step]
    refine inv_peer h cl _ ?_
    intro x
    split
    · simp; exact fun hh => Or.inl hh
    · rename_i he; simp [he]
      exact fun hh => Or.inl hh
  | peerEOF cl =>
    simp only [St.step]
    refine inv_peer h cl _ ?_
    intro x; simp
    exact fun hh => Or.inl hh
  | peerReset cl =>
    simp only [St.step]
    refine inv_peer h cl _ ?_
    intro x; simp
    exact fun hh => Or.inl hh
  | expire cl =>
    simp only [St.step]
    refine inv_peer h cl _ ?_
    intro x
    split
    · rename_i hd; simp [hd]
    · simp; exact fun hh => Or.inl hh
  | read w n halfOK =>
    simp only [St.step]
    split
    · rename_i hd
      have hw := h w
      obtain ⟨h1, h2⟩ := hw.copying [] hd
      split
      · exact inv_finish h w (s.out w) [] hd true halfOK ⟨[], by simp, by simp⟩ (by simp)
      · split
        · rename_i hlt
          have hnd : (s.out w).deadline ≠ true := fun hh => by rw [hw.deadline hh] at hd; cases hd
          apply inv_set h
          · constructor
            · intro b hb
              rw [dir_set] at hb; cases hb
              rw [inn_set, out_set]
              refine ⟨?_, h2⟩
              rw [List.append_nil] at h1
              simp only
              rw [take_append_chunk, h1]
            · intro e he; rw [dir_set] at he; cases he
            · rw [inn_set]
              simp only [List.length_take, List.length_drop]
              omega
            · intro he; rw [dir_set] at he; cases he
            · intro e he; rw [dir_set] at he; cases he
            · rw [out_set]; intro hh; exact absurd hh hnd
            · rw [out_set]; intro hh; exact absurd (hw.expired hh) hnd
          · simp
          · simp
        · split
          · rename_i hnlt heof
            have := hw.bound
            exact inv_finish h w (s.out w) [] hd false halfOK ⟨[], by simp, by simp⟩
              (fun _ => ⟨rfl, heof, by omega⟩)
          · exact h
    · exact h
  | write w k =>
    simp only [St.step]
    split
    · rename_i b bs hd
      have hw := h w
      obtain ⟨h1, h2⟩ := hw.copying _ hd
      split
      · exact inv_finish h w (s.out w) _ hd true true ⟨[], by simp, by simp⟩ (by simp)
      · split
        · exact inv_finish h w _ _ hd true true ⟨(b :: bs).take k, rfl, List.take_prefix _ _⟩ (by simp)
        · have hnd : (s.out w).deadline ≠ true := fun hh => by rw [hw.deadline hh] at hd; cases hd
          apply inv_set h
          · constructor
            · intro b' hb
              rw [dir_set] at hb; cases hb
              rw [inn_set, out_set]
              refine ⟨?_, h2⟩
              rw [List.append_nil]; exact h1
            · intro e he; rw [dir_set] at he; cases he
            · rw [inn_set]; exact hw.bound
            · intro he; rw [dir_set] at he; cases he
            · intro e he; rw [dir_set] at he; cases he
            · rw [out_set]; intro hh; exact absurd hh hnd
            · rw [out_set]; intro hh; exact absurd (hw.expired hh) hnd
          · simp
          · simp
    · exact h

theorem inv_run (cfg : Cfg) (ops : List Op) {s : St} (h : Inv cfg s) : Inv cfg (s.run cfg ops) := by
  induction ops generalizing s with
  | nil => exact h
  | cons op ops ih => exact ih (inv_step h op)

/-! ## C17 -/

/-- C17, order and integrity. At every moment, what the server has received is a prefix of what
the client has sent, and what the client has received is a prefix of what the server has sent. -/
theorem relay_prefix (cfg : Cfg) (ops : List Op) :
    let s := ({} : St).run cfg ops
    s.server.written <+: s.client.sent ∧ s.client.written <+: s.server.sent := by
  intro s
  have key : ∀ w, (s.out w).written <+: (s.inn w).sent := by
    intro w
    have h := inv_run cfg ops (inv_init cfg) w
    cases hd : s.dir w with
    | returned err => exact h.returned err hd
    | copying buf =>
      have := (h.copying buf hd).1
      have h2 : (s.out w).written <+: (s.inn w).sent.take (s.inn w).taken := by
        rw [this]; exact List.prefix_append _ _
      exact h2.trans (List.take_prefix _ _)
  exact ⟨key .up, key .down⟩

/-- C17, nothing is cut off. A direction that ended without error has delivered everything its
sender sent, and the sender had finished. -/
theorem relay_complete (cfg : Cfg) (ops : List Op) :
    let s := ({} : St).run cfg ops
    (s.up = .returned false → s.client.eof = true ∧ s.server.written = s.client.sent) ∧
    (s.down = .returned false → s.server.eof = true ∧ s.client.written = s.server.sent) := by
  intro s
  have h := inv_run cfg ops (inv_init cfg)
  exact ⟨(h .up).complete, (h .down).complete⟩

/-- C17, ending the connection. A direction that failed, or that is configured to end the
connection (by default the one from the server), has closed both ends when it is done. -/
theorem relay_ends_both (cfg : Cfg) (ops : List Op) (err : Bool) :
    let s := ({} : St).run cfg ops
    (s.up = .returned err → err = true ∨ cfg.clientCloseEnds = some true →
      s.client.closed = true ∧ s.server.closed = true) ∧
    (s.down = .returned err → err = true ∨ cfg.serverCloseEnds ≠ some false →
      s.client.closed = true ∧ s.server.closed = true) := by
  intro s
  have h := inv_run cfg ops (inv_init cfg)
  constructor
  · intro hd he
    refine (h .up).ends err hd (he.imp id ?_)
    intro hc; simp [Cfg.closeWhenDone, hc]
  · intro hd he
    have := (h .down).ends err hd (he.imp id ?_)
    · exact ⟨this.2, this.1⟩
    · intro hc
      unfold Cfg.closeWhenDone
      cases hs : cfg.serverCloseEnds with
      | none => rfl
      | some b => cases b with
        | true => rfl
        | false => exact absurd hs hc

/-- C17, the half-close timeout only applies to a half-closed connection: a read deadline is
set on a side only after the direction that writes to it has ended normally. -/
theorem deadline_only_half_closed (cfg : Cfg) (ops : List Op) :
    let s := ({} : St).run cfg ops
    (s.server.deadline = true → s.up = .returned false) ∧
    (s.client.deadline = true → s.down = .returned false) := by
  intro s
  have h := inv_run cfg ops (inv_init cfg)
  exact ⟨(h .up).deadline, (h .down).deadline⟩

/-- The direction that reads from a side (`true` is the client), and the one that writes to it. -/
def Spec.reader (client : Bool) : Which := if client then .up else .down
def Spec.writer (client : Bool) : Which := if client then .down else .up

/-- The direction has ended with an error and both ends are closed. -/
def Spec.Over (s : St) (w : Which) : Prop :=
  s.dir w = .returned true ∧ s.client.closed = true ∧ s.server.closed = true

theorem finish_over (s : St) (cwd : Bool) (w : Which) (i o : Side) (h : Bool) :
    Spec.Over (s.finish cwd w i o true h) w := by
  unfold St.finish
  rw [if_pos (Or.inl rfl)]
  cases w <;> exact ⟨rfl, rfl, rfl⟩

/-- A side that has failed stays so. -/
structure Keeps (x y : Side) : Prop where
  closed : x.closed = true → y.closed = true
  broken : x.broken = true → y.broken = true
  expired : x.expired = true → y.expired = true

theorem keeps_set (s : St) (w : Which) (i o : Side) (d : Dir) (hi : Keeps (s.inn w) i) (ho : Keeps (s.out w) o) :
    Keeps s.client (s.set w i o d).client ∧ Keeps s.server (s.set w i o d).server := by
  cases w
  · exact ⟨hi, ho⟩
  · exact ⟨ho, hi⟩

theorem keeps_finish (s : St) (cwd : Bool) (w : Which) (i o : Side) (e h : Bool) (hi : Keeps (s.inn w) i)
    (ho : Keeps (s.out w) o) :
    Keeps s.client (s.finish cwd w i o e h).client ∧ Keeps s.server (s.finish cwd w i o e h).server := by
  unfold St.finish
  split
  · exact keeps_set _ _ _ _ _ ⟨fun _ => rfl, hi.broken, hi.expired⟩ ⟨fun _ => rfl, ho.broken, ho.expired⟩
  · split
    · exact keeps_set _ _ _ _ _ hi ⟨ho.closed, ho.broken, ho.expired⟩
    · exact keeps_set _ _ _ _ _ ⟨fun _ => rfl, hi.broken, hi.expired⟩ ⟨fun _ => rfl, ho.broken, ho.expired⟩

theorem keeps_refl (x : Side) : Keeps x x := ⟨id, id, id⟩

theorem keeps_side (s : St) (cl : Bool) (f : Side → Side) (h : ∀ x, Keeps x (f x)) :
    Keeps s.client (onSide s cl f).client ∧ Keeps s.server (onSide s cl f).server := by
  unfold onSide
  cases cl
  · exact ⟨keeps_refl _, h _⟩
  · exact ⟨h _, keeps_refl _⟩

theorem keeps_step (cfg : Cfg) (s : St) (op : Op) :
    Keeps s.client (s.step cfg op).client ∧ Keeps s.server (s.step cfg op).server := by
  cases op with
  | peerSend cl b =>
    simp only [St.step]
    exact keeps_side _ _ _ fun x => by split <;> exact ⟨id, id, id⟩
  | peerEOF cl => exact keeps_side _ _ _ fun x => ⟨id, id, id⟩
  | peerReset cl => exact keeps_side _ _ _ fun x => ⟨id, fun _ => rfl, id⟩
  | expire cl =>
    simp only [St.step]
    exact keeps_side _ _ _ fun x => by
      split
      · exact ⟨id, id, fun _ => rfl⟩
      · exact ⟨id, id, id⟩
  | read w n h =>
    simp only [St.step]
    split
    · split
      · exact keeps_finish _ _ _ _ _ _ _ (keeps_refl _) (keeps_refl _)
      · split
        · exact keeps_set _ _ _ _ _ ⟨id, id, id⟩ (keeps_refl _)
        · split
          · exact keeps_finish _ _ _ _ _ _ _ (keeps_refl _) (keeps_refl _)
          · exact ⟨keeps_refl _, keeps_refl _⟩
    · exact ⟨keeps_refl _, keeps_refl _⟩
  | write w k =>
    simp only [St.step]
    split
    · split
      · exact keeps_finish _ _ _ _ _ _ _ (keeps_refl _) (keeps_refl _)
      · split
        · exact keeps_finish _ _ _ _ _ _ _ (keeps_refl _) ⟨id, id, id⟩
        · exact keeps_set _ _ _ _ _ (keeps_refl _) ⟨id, id, id⟩
    · exact ⟨keeps_refl _, keeps_refl _⟩

theorem keeps_run (cfg : Cfg) (ops : List Op) (s : St) :
    Keeps s.client (s.run cfg ops).client ∧ Keeps s.server (s.run cfg ops).server := by
  induction ops generalizing s with
  | nil => exact ⟨keeps_refl _, keeps_refl _⟩
  | cons o ops ih =>
    obtain ⟨a, b⟩ := keeps_step cfg s o
    obtain ⟨c, d⟩ := ih (s.step cfg o)
    exact ⟨⟨c.1 ∘ a.1, c.2 ∘ a.2, c.3 ∘ a.3⟩, ⟨d.1 ∘ b.1, d.2 ∘ b.2, d.3 ∘ b.3⟩⟩

theorem run_append (cfg : Cfg) (s : St) (l l' : List Op) : s.run cfg (l ++ l') = (s.run cfg l).run cfg l' := by
  unfold St.run; rw [List.foldl_append]

theorem read_over (cfg : Cfg) (s : St) (w : Which) (n : Nat) (h : Bool) (hd : s.dir w = .copying [])
    (hf : (s.inn w).closed = true ∨ (s.inn w).broken = true ∨ (s.inn w).expired = true) :
    Spec.Over (s.step cfg (.read w n h)) w := by
  simp only [St.step, hd]
  rw [if_pos hf]
  exact finish_over _ _ _ _ _ _

theorem write_over (cfg : Cfg) (s : St) (w : Which) (k : Nat) (b : UInt8) (bs : Bytes)
    (hd : s.dir w = .copying (b :: bs)) (hf : (s.out w).closed = true ∨ (s.out w).broken = true) :
    Spec.Over (s.step cfg (.write w k)) w := by
  simp only [St.step, hd]
  by_cases h1 : (s.out w).closed = true ∨ (s.out w).wclosed = true
  · rw [if_pos h1]; exact finish_over _ _ _ _ _ _
  · have hb : (s.out w).broken = true := hf.resolve_left fun h => h1 (Or.inl h)
    rw [if_neg h1, if_pos hb]; exact finish_over _ _ _ _ _ _

/-- C17, a failure of one connection ends the relay. After one side has been reset, the direction reading from it
ends at its next read, and the direction writing to it at its next write, with both ends closed. -/
theorem reset_ends_both (cfg : Cfg) (ops ops' : List Op) (cl : Bool) :
    let s := ({} : St).run cfg (ops ++ .peerReset cl :: ops')
    (s.dir (Spec.reader cl) = .copying [] → ∀ n h,
      Spec.Over (s.step cfg (.read (Spec.reader cl) n h)) (Spec.reader cl)) ∧
    (∀ b bs, s.dir (Spec.writer cl) = .copying (b :: bs) → ∀ k,
      Spec.Over (s.step cfg (.write (Spec.writer cl) k)) (Spec.writer cl)) := by
  intro s
  have hs : s = ((({} : St).run cfg ops).step cfg (.peerReset cl)).run cfg ops' := run_append _ _ _ _
  obtain ⟨kc, ks⟩ := keeps_run cfg ops' ((({} : St).run cfg ops).step cfg (.peerReset cl))
  rw [← hs] at kc ks
  cases cl
  · have hb : s.server.broken = true := ks.broken rfl
    exact ⟨fun hd n h => read_over _ _ _ _ _ hd (Or.inr (Or.inl hb)),
      fun b bs hd k => write_over _ _ _ _ _ _ hd (Or.inr hb)⟩
  · have hb : s.client.broken = true := kc.broken rfl
    exact ⟨fun hd n h => read_over _ _ _ _ _ hd (Or.inr (Or.inl hb)),
      fun b bs hd k => write_over _ _ _ _ _ _ hd (Or.inr hb)⟩

/-- C17, a half-closed connection does not stay open forever: once the deadline set on it has passed, the
direction reading from it ends at its next read, with both ends closed. -/
theorem timeout_ends_both (cfg : Cfg) (ops ops' : List Op) (cl : Bool)
    (hdl : (if cl then (({} : St).run cfg ops).client else (({} : St).run cfg ops).server).deadline = true) :
    let s := ({} : St).run cfg (ops ++ .expire cl :: ops')
    s.dir (Spec.reader cl) = .copying [] → ∀ n h,
      Spec.Over (s.step cfg (.read (Spec.reader cl) n h)) (Spec.reader cl) := by
  intro s hd n h
  have hs : s = ((({} : St).run cfg ops).step cfg (.expire cl)).run cfg ops' := run_append _ _ _ _
  obtain ⟨kc, ks⟩ := keeps_run cfg ops' ((({} : St).run cfg ops).step cfg (.expire cl))
  rw [← hs] at kc ks
  cases cl
  · have hx : s.server.expired = true := ks.expired (by
      have hdl : (({} : St).run cfg ops).server.deadline = true := hdl
      simp [St.step, onSide, hdl])
    exact read_over _ _ _ _ _ hd (Or.inr (Or.inr hx))
  · have hx : s.client.expired = true := kc.expired (by
      have hdl : (({} : St).run cfg ops).client.deadline = true := hdl
      simp [St.step, onSide, hdl])
    exact read_over _ _ _ _ _ hd (Or.inr (Or.inr hx))

/-- C17, the two directions end together: once one end is closed, so is the other, and a direction that is still
running ends at its next read or write. -/
theorem closed_ends_both (cfg : Cfg) (ops : List Op) :
    let s := ({} : St).run cfg ops
    s.client.closed = s.server.closed ∧
    (s.client.closed = true → ∀ w, (s.dir w = .copying [] → ∀ n h, Spec.Over (s.step cfg (.read w n h)) w) ∧
      (∀ b bs, s.dir w = .copying (b :: bs) → ∀ k, Spec.Over (s.step cfg (.write w k)) w)) := by
  have key : ∀ (ops : List Op) (s : St), s.client.closed = s.server.closed →
      (s.run cfg ops).client.closed = (s.run cfg ops).server.closed := by
    intro ops
    induction ops with
    | nil => intro s h; exact h
    | cons o ops ih =>
      intro s h
      refine ih _ ?_
      have side : ∀ cl f, (∀ x : Side, (f x).closed = x.closed) →
          (onSide s cl f).client.closed = (onSide s cl f).server.closed := by
        intro cl f hf
        unfold onSide
        cases cl
        · exact h.trans (hf _).symm
        · exact (hf _).trans h
      have fin : ∀ (cwd e hk : Bool) (w : Which) (i o : Side), i.closed = o.closed →
          (s.finish cwd w i o e hk).client.closed = (s.finish cwd w i o e hk).server.closed := by
        intro cwd e hk w i o hio
        unfold St.finish
        split
        · cases w <;> rfl
        · split
          · cases w
            · exact hio
            · exact hio.symm
          · cases w <;> rfl
      have hio : ∀ w, (s.inn w).closed = (s.out w).closed := by
        intro w; cases w
        · exact h
        · exact h.symm
      have st : ∀ (w : Which) (i o : Side) (d : Dir), i.closed = o.closed →
          (s.set w i o d).client.closed = (s.set w i o d).server.closed := by
        intro w i o d hx
        cases w
        · exact hx
        · exact hx.symm
      cases o with
      | peerSend cl b => exact side _ _ fun x => by split <;> rfl
      | peerEOF cl => exact side _ _ fun x => rfl
      | peerReset cl => exact side _ _ fun x => rfl
      | expire cl => exact side _ _ fun x => by split <;> rfl
      | read w n hk =>
        simp only [St.step]
        split
        · split
          · exact fin _ _ _ _ _ _ (hio w)
          · split
            · exact st _ _ _ _ (hio w)
            · split
              · exact fin _ _ _ _ _ _ (hio w)
              · exact h
        · exact h
      | write w k =>
        simp only [St.step]
        split
        · split
          · exact fin _ _ _ _ _ _ (hio w)
          · split
            · exact fin _ _ _ _ _ _ (hio w)
            · exact st _ _ _ _ (hio w)
        · exact h
  intro s
  have hk : s.client.closed = s.server.closed := key ops {} rfl
  refine ⟨hk, fun hc w => ?_⟩
  have hi : (s.inn w).closed = true ∧ (s.out w).closed = true := by
    cases w
    · exact ⟨hc, hk ▸ hc⟩
    · exact ⟨hk ▸ hc, hc⟩
  exact ⟨fun hd n h => read_over _ _ _ _ _ hd (Or.inl hi.1),
    fun b bs hd k => write_over _ _ _ _ _ _ hd (Or.inl hi.2)⟩

/-- The client finishes, the server never does: the deadline ends both directions. -/
example : let s := ({} : St).run {} [.peerEOF true, .read .up 0 true]
    s.server.deadline = true ∧ s.dir .down = .copying [] ∧
    Spec.Over (s.run {} [.expire false, .read .down 0 true]) .down := by
  refine ⟨by decide, by decide, by decide, by decide, by decide⟩

/-- The client is reset while data from the server is on its way. -/
example : let s := ({} : St).run {} [.peerSend false [7], .read .down 4 true, .peerReset true]
    s.dir .down = .copying [7] ∧ Spec.Over (s.step {} (.write .down 0)) .down := by
  refine ⟨by decide, by decide, by decide, by decide⟩

/-- The network and the peers behave: no resets, no expired deadline, half-closing works. -/
def Spec.calm : Op → Prop
  | .peerReset _ => False
  | .expire _ => False
  | .read _ _ halfOK => halfOK = true
  | _ => True

/-- C17, the other direction keeps flowing. If neither direction is configured to end the
connection, then as long as the network behaves no end is ever closed: whatever the order in
which the two sides finish, a direction returns only after delivering everything, and one that
has not returned can always make progress: pending data can be read, and what was read can be
written. -/
theorem half_close_independent (cfg : Cfg) (hs : cfg.serverCloseEnds = some false)
    (hc : cfg.clientCloseEnds ≠ some true) (ops : List Op) (hcalm : ∀ o ∈ ops, Spec.calm o) :
    let s := ({} : St).run cfg ops
    s.client.closed = false ∧ s.server.closed = false ∧
    ∀ w, match s.dir w with
      | .returned err => err = false ∧ (s.inn w).eof = true ∧ (s.out w).written = (s.inn w).sent
      | .copying [] => (s.inn w).taken < (s.inn w).sent.length →
          ∀ n, ∃ b buf, (s.step cfg (.read w n true)).dir w = .copying (b :: buf)
      | .copying (b :: buf) => ∀ k,
          ((s.step cfg (.write w k)).out w).written = (s.out w).written ++ (b :: buf) := by
  have hcwd : ∀ w, cfg.closeWhenDone w = false := by
    intro w
    cases w with
    | up =>
      unfold Cfg.closeWhenDone
      cases h : cfg.clientCloseEnds with
      | none => rfl
      | some b => cases b with
        | false => rfl
        | true => exact absurd h hc
    | down => simp [Cfg.closeWhenDone, hs]
  -- nothing is closed or broken, no direction failed
  let Q : St → Prop := fun s => ∀ w, (s.inn w).closed = false ∧ (s.inn w).broken = false ∧
    (s.inn w).expired = false ∧ ∀ e, s.dir w = .returned e → e = false
  have qstep : ∀ (s : St) (o : Op), Inv cfg s → Q s → Spec.calm o → Q (s.step cfg o) := by
    intro s o hI hQ ho
    have peer : ∀ (cl : Bool) (f : Side → Side), (∀ x : Side, (f x).closed = x.closed ∧
        (f x).broken = x.broken ∧ (f x).expired = x.expired) → Q (onSide s cl f) := by
      intro cl f hf w
      have := hQ w
      unfold onSide
      cases cl <;> cases w
      · exact this
      · obtain ⟨a, b, c, d⟩ := this
        exact ⟨(hf _).1.trans a, (hf _).2.1.trans b, (hf _).2.2.trans c, d⟩
      · obtain ⟨a, b, c, d⟩ := this
        exact ⟨(hf _).1.trans a, (hf _).2.1.trans b, (hf _).2.2.trans c, d⟩
      · exact this
    have setq : ∀ (w : Which) (i o : Side) (d : Dir), i.closed = false → i.broken = false → i.expired = false →
        o.closed = false → o.broken = false → o.expired = false → (∀ e, d = .returned e → e = false) →
        Q (s.set w i o d) := by
      intro w i o d a b c a' b' c' hd v
      by_cases hv : v = w
      · subst hv; rw [inn_set, dir_set]; exact ⟨a, b, c, hd⟩
      · have hv' : v = w.flip := by cases v <;> cases w <;> simp_all [Which.flip]
        subst hv'
        rw [inn_flip, out_set, dir_set_flip]
        exact ⟨a', b', c', (hQ w.flip).2.2.2⟩
    cases o with
    | peerSend cl b => simp only [St.step]; exact peer cl _ (fun x => by split <;> simp)
    | peerEOF cl => simp only [St.step]; exact peer cl _ (fun x => by simp)
    | peerReset cl => exact ho.elim
    | expire cl => exact ho.elim
    | read w n halfOK =>
      have ho' : halfOK = true := ho
      subst ho'
      simp only [St.step]
      obtain ⟨a, b, c, d⟩ := hQ w
      have hf := hQ w.flip
      rw [inn_flip] at hf
      obtain ⟨a', b', c', d'⟩ := hf
      split
      · rw [if_neg (by simp [a, b, c])]
        split
        · exact setq w _ _ _ a b c a' b' c' (by simp)
        · split
          · unfold St.finish
            rw [if_neg (by simp [hcwd w]), if_pos ⟨rfl, a'⟩]
            exact setq w _ _ _ a b c a' b' c' (by simp)
          · exact hQ
      · exact hQ
    | write w k =>
      simp only [St.step]
      obtain ⟨a, b, c, d⟩ := hQ w
      have hf := hQ w.flip
      rw [inn_flip] at hf
      obtain ⟨a', b', c', d'⟩ := hf
      split
      · rename_i hd
        have hwc := ((hI w).copying _ hd).2
        rw [if_neg (by simp [a', hwc]), if_neg (by simp [b'])]
        exact setq w _ _ _ a b c a' b' c' (by simp)
      · exact hQ
  have qrun : ∀ (ops : List Op) (s : St), Inv cfg s → Q s → (∀ o ∈ ops, Spec.calm o) → Q (s.run cfg ops) := by
    intro ops
    induction ops with
    | nil => intro s _ hQ _; exact hQ
    | cons o ops ih =>
      intro s hI hQ ho
      exact ih _ (inv_step hI o) (qstep s o hI hQ (ho o (by simp))) (fun o h => ho o (by simp [h]))
  intro s
  have hI : Inv cfg s := inv_run cfg ops (inv_init cfg)
  have hQ : Q s := qrun ops {} (inv_init cfg) (by intro w; cases w <;> simp [St.inn, St.dir]) hcalm
  refine ⟨(hQ .up).1, (hQ .down).1, ?_⟩
  intro w
  obtain ⟨a, b, c, d⟩ := hQ w
  have hf := hQ w.flip
  rw [inn_flip] at hf
  obtain ⟨a', b', c', d'⟩ := hf
  split
  · rename_i err hd
    have := d err hd
    subst this
    exact ⟨rfl, (hI w).complete hd⟩
  · rename_i hd
    intro hlt n
    have hch : ∃ x xs, ((s.inn w).sent.drop (s.inn w).taken).take (n + 1) = x :: xs := by
      cases hx : (s.inn w).sent.drop (s.inn w).taken with
      | nil =>
        have := congrArg List.length hx
        simp at this; omega
      | cons x xs => exact ⟨x, xs.take n, rfl⟩
    obtain ⟨x, xs, hx⟩ := hch
    refine ⟨x, xs, ?_⟩
    simp only [St.step, hd]
    rw [if_neg (by simp [a, b, c]), if_pos hlt, dir_set, hx]
  · rename_i x buf hd
    intro k
    have hwc := ((hI w).copying _ hd).2
    simp only [St.step, hd]
    rw [if_neg (by simp [a', hwc]), if_neg (by simp [b']), out_set]

/-- Non-vacuity: the client finishes first, the server keeps sending, everything arrives. -/
example : (({} : St).run { serverCloseEnds := some false }
      [.peerSend true [1, 2], .peerEOF true, .read .up 0 true, .write .up 0, .read .up 0 true, .write .up 0,
       .read .up 0 true, .peerSend false [7], .peerEOF false, .read .down 5 true, .write .down 0,
       .read .down 5 true]) =
    { client :=
        { sent := [1, 2], taken := 2, eof := true, written := [7], wclosed := true, deadline := true }
      server :=
        { sent := [7], taken := 1, eof := true, written := [1, 2], wclosed := true, deadline := true }
      up := .returned false
      down := .returned false } := by decide

/-- With the defaults, the end of the server stream closes both ends. -/
example : (({} : St).run {} [.peerSend false [7], .peerEOF false, .read .down 5 true, .write .down 0,
      .read .down 5 true, .peerSend true [1], .read .up 3 true]) =
    { client := { sent := [1], written := [7], closed := true }
      server := { sent := [7], taken := 1, eof := true, closed := true }
      up := .returned true
      down := .returned false } := by decide

end Verif.Bridge
