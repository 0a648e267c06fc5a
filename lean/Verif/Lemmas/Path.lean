import Verif.Model.Path
/-! Helper lemmas: the character loop of path.Clean resolves segments. -/
namespace Verif.Path

/-- Resolution of one segment on a stack of segments (last one first). -/
def push (st : List Str) (s : Str) : List Str :=
  if s = [] ∨ s = ['.'] then st else if s = ['.', '.'] then st.tail else s :: st

/-- A stack of proper segments. -/
def Good (st : List Str) : Prop := ∀ s ∈ st, s ≠ [] ∧ '/' ∉ s

/-- The reversed output buffer for a stack of segments. -/
def buf : List Str → Str
  | [] => ['/']
  | [s] => s.reverse ++ ['/']
  | s :: st => s.reverse ++ '/' :: buf st

theorem buf_length (st : List Str) : 1 ≤ (buf st).length := by
  match st with
  | [] => simp [buf]
  | [s] => simp [buf]
  | s :: t :: st => simp [buf]; omega

theorem buf_cons {s : Str} {st : List Str} (hs : st ≠ []) : buf (s :: st) = s.reverse ++ '/' :: buf st := by
  match st with
  | [] => exact absurd rfl hs
  | t :: st => rfl

theorem buf_length_gt {st : List Str} (h : Good st) (hs : st ≠ []) : 1 < (buf st).length := by
  match st with
  | [s] =>
    have := (h s (by simp)).1
    have : 0 < s.length := List.length_pos_iff.mpr this
    simp [buf]; omega
  | s :: t :: st =>
    have := buf_length (t :: st)
    rw [buf_cons (by simp)]; simp; omega

theorem backup_run (r : Str) (x : Char) (tail : Str) (hx : '/' ∉ r) (ht : 1 ≤ tail.length)
    (hxs : x ≠ '/') : backup (x :: r ++ '/' :: tail) = tail := by
  induction r generalizing x with
  | nil =>
    simp only [List.cons_append, List.nil_append]
    rw [backup, if_neg (by rw [List.length_cons]; omega), if_neg hxs, backup]
    split
    · rfl
    · rw [if_pos rfl]
  | cons y r ih =>
    simp only [List.cons_append]
    rw [backup, if_neg (by simp), if_neg hxs]
    exact ih y (by simp at hx; exact hx.2) (by simp at hx; exact fun h => hx.1 h.symm)

theorem backup_last (r : Str) (x : Char) (hx : '/' ∉ r) (hxs : x ≠ '/') :
    backup (x :: r ++ ['/']) = ['/'] := by
  induction r generalizing x with
  | nil => simp [backup]
  | cons y r ih =>
    simp only [List.cons_append]
    rw [backup, if_neg (by simp), if_neg hxs]
    exact ih y (by simp at hx; exact hx.2) (by simp at hx; exact fun h => hx.1 h.symm)

theorem backup_buf {s : Str} {st : List Str} (h : Good (s :: st)) : backup (buf (s :: st)) = buf st := by
  have h1 := h s (by simp)
  have hr : '/' ∉ s.reverse := by simpa using h1.2
  have hne : s.reverse ≠ [] := by simpa using h1.1
  obtain ⟨x, r, he⟩ := List.exists_cons_of_ne_nil hne
  rw [he] at hr
  simp only [List.mem_cons, not_or] at hr
  match st with
  | [] => show backup (s.reverse ++ ['/']) = ['/']; rw [he]; exact backup_last r x hr.2 (fun e => hr.1 e.symm)
  | t :: st =>
    rw [buf_cons (by simp), he]
    exact backup_run r x (buf (t :: st)) hr.2 (buf_length _) (fun e => hr.1 e.symm)

theorem push_dotdot {st : List Str} (h : Good st) :
    (if (buf st).length > 1 then backup (buf st) else buf st) = buf (push st ['.', '.']) := by
  have e : push st ['.', '.'] = st.tail := by simp [push]
  rw [e]
  match st, h with
  | [], _ => simp [buf]
  | s :: st, h => rw [if_pos (buf_length_gt h (by simp)), backup_buf h]; rfl

theorem good_push {st : List Str} (h : Good st) (s : Str) (hs : '/' ∉ s) : Good (push st s) := by
  unfold push
  split
  · exact h
  · rename_i hn
    split
    · intro x hx; exact h x (List.mem_of_mem_tail hx)
    · intro x hx
      rcases List.mem_cons.mp hx with rfl | hx
      · exact ⟨fun e => hn (.inl e), hs⟩
      · exact h x hx

theorem splitSlash_ne (p : Str) : splitSlash p ≠ [] := by
  cases p with
  | nil => simp [splitSlash]
  | cons c t =>
    rw [splitSlash]; split
    · simp
    · split <;> simp

theorem splitSlash_slash (t : Str) : splitSlash ('/' :: t) = [] :: splitSlash t := by
  simp [splitSlash]

theorem splitSlash_seg (s : Str) (t : Str) (hs : '/' ∉ s) :
    splitSlash (s ++ '/' :: t) = s :: splitSlash t := by
  induction s with
  | nil => exact splitSlash_slash t
  | cons c s ih =>
    simp only [List.mem_cons, not_or] at hs
    rw [List.cons_append, splitSlash, if_neg (fun e => hs.1 e.symm), ih hs.2]

theorem splitSlash_last (s : Str) (hs : '/' ∉ s) : splitSlash s = [s] := by
  induction s with
  | nil => rfl
  | cons c s ih =>
    simp only [List.mem_cons, not_or] at hs
    rw [splitSlash, if_neg (fun e => hs.1 e.symm), ih hs.2]

theorem splitSlash_noslash (p : Str) : ∀ s ∈ splitSlash p, '/' ∉ s := by
  induction p with
  | nil => simp [splitSlash]
  | cons c t ih =>
    rw [splitSlash]
    split
    · intro s hs
      rcases List.mem_cons.mp hs with rfl | hs
      · simp
      · exact ih s hs
    · rename_i hc
      split
      · intro s hs; simp at hs; subst hs; simpa using fun e => hc e.symm
      · rename_i s ss he
        intro x hx
        rcases List.mem_cons.mp hx with rfl | hx
        · have := ih s (by rw [he]; simp)
          simp [this]; exact fun e => hc e.symm
        · exact ih x (by rw [he]; exact List.mem_cons_of_mem _ hx)

/-- Splitting a path at its first slash. -/
theorem path_cases (p : Str) : ('/' ∉ p) ∨ ∃ s t, p = s ++ '/' :: t ∧ '/' ∉ s := by
  induction p with
  | nil => simp
  | cons c t ih =>
    by_cases hc : c = '/'
    · right; exact ⟨[], t, by simp [hc], by simp⟩
    · rcases ih with h | ⟨s, t', rfl, hs⟩
      · left; simp [h]; exact fun e => hc e.symm
      · right; exact ⟨c :: s, t', rfl, by simp [hs]; exact fun e => hc e.symm⟩

/-- Copying an element that is followed by a slash. -/
theorem copy_seg (s t out : Str) (hs : '/' ∉ s) :
    cleanLoop (s ++ '/' :: t) out true = cleanLoop t (s.reverse ++ out) false := by
  induction s generalizing out with
  | nil => rw [List.nil_append, cleanLoop]; rfl
  | cons c s ih =>
    simp only [List.mem_cons, not_or] at hs
    rw [List.cons_append, cleanLoop.eq_3 _ _ _ (fun e => hs.1 e.symm), ih _ hs.2]
    simp

theorem copy_last (s out : Str) (hs : '/' ∉ s) : cleanLoop s out true = s.reverse ++ out := by
  induction s generalizing out with
  | nil => rfl
  | cons c s ih =>
    simp only [List.mem_cons, not_or] at hs
    rw [cleanLoop.eq_3 _ _ _ (fun e => hs.1 e.symm), ih _ hs.2]
    simp


theorem buf_push {st : List Str} (h : Good st) (s : Str) :
    s.reverse ++ (if (buf st).length ≠ 1 then '/' :: buf st else buf st) = buf (s :: st) := by
  match st, h with
  | [], _ => simp [buf]
  | t :: st, h =>
    have := buf_length_gt h (by simp)
    rw [if_pos (by omega)]; rfl

theorem loop_seg (s t : Str) (st : List Str) (h : Good st) (hs : '/' ∉ s) :
    cleanLoop (s ++ '/' :: t) (buf st) false = cleanLoop t (buf (push st s)) false := by
  by_cases h0 : s = []
  · subst h0; rw [List.nil_append, cleanLoop]; simp [push]
  by_cases h1 : s = ['.']
  · subst h1; simp only [List.cons_append, List.nil_append]; rw [cleanLoop]; simp [push]
  by_cases h2 : s = ['.', '.']
  · subst h2; simp only [List.cons_append, List.nil_append]; rw [cleanLoop, push_dotdot h]
  obtain ⟨c, s', rfl⟩ := List.exists_cons_of_ne_nil h0
  have e : push st (c :: s') = (c :: s') :: st := by simp [push, h1, h2]
  simp only [List.mem_cons, not_or] at hs
  rw [e, ← buf_push h, List.cons_append, cleanLoop.eq_8, copy_seg _ _ _ hs.2]
  · simp
  · exact fun e => hs.1 e.symm
  · rintro rfl hn; simp at hn
  · rintro t' rfl hn
    cases s' with
    | nil => exact h1 rfl
    | cons d s'' => simp at hn; exact hs.2 (by simp [hn.1])
  · rintro rfl hn
    cases s' with
    | nil => exact h1 rfl
    | cons d s'' => simp at hn
  · rintro t' rfl hn
    match s' with
    | [] => exact h1 rfl
    | [d] => simp at hn; exact h2 (by simp [hn.1])
    | d :: d' :: s'' => simp at hn; exact hs.2 (by simp [hn.2.1])

theorem loop_last (s : Str) (st : List Str) (h : Good st) (hs : '/' ∉ s) :
    cleanLoop s (buf st) false = buf (push st s) := by
  by_cases h0 : s = []
  · subst h0; simp [push, cleanLoop]
  by_cases h1 : s = ['.']
  · subst h1; simp [push, cleanLoop]
  by_cases h2 : s = ['.', '.']
  · subst h2; rw [cleanLoop, push_dotdot h]
  obtain ⟨c, s', rfl⟩ := List.exists_cons_of_ne_nil h0
  have e : push st (c :: s') = (c :: s') :: st := by simp [push, h1, h2]
  simp only [List.mem_cons, not_or] at hs
  rw [e, ← buf_push h, cleanLoop.eq_8, copy_last _ _ hs.2]
  · simp
  · exact fun e => hs.1 e.symm
  · rintro rfl rfl; exact h1 rfl
  · rintro t' rfl rfl; simp at hs
  · rintro rfl rfl; exact h2 rfl
  · rintro t' rfl rfl; simp at hs

theorem loop_all (p : Str) (st : List Str) (h : Good st) :
    cleanLoop p (buf st) false = buf ((splitSlash p).foldl push st) := by
  generalize hn : p.length = n
  induction n using Nat.strongRecOn generalizing p st with
  | _ n ih =>
    rcases path_cases p with hp | ⟨s, t, rfl, hs⟩
    · rw [loop_last p st h hp, splitSlash_last p hp]; rfl
    · rw [loop_seg s t st h hs, splitSlash_seg s t hs, List.foldl_cons]
      exact ih t.length (by simp at hn; omega) t _ (good_push h s hs) rfl

theorem good_fold (l st : List Str) (h : Good st) (hl : ∀ s ∈ l, '/' ∉ s) : Good (l.foldl push st) := by
  induction l generalizing st with
  | nil => exact h
  | cons a t ih =>
    exact ih _ (good_push h a (hl a (by simp))) fun s hs => hl s (List.mem_cons_of_mem _ hs)

end Verif.Path
