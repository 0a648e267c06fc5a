import Verif.Lemmas.Path
/-
C22: the cleaned form of a request path.
-/
namespace Verif.Path

/-! ## Specification -/

/-- Resolving path segments one after the other: empty and "." segments are dropped, ".."
removes the last segment kept so far and is dropped if there is none. -/
def Spec.resolve : List Str → List Str → List Str
  | [], acc => acc
  | s :: t, acc =>
    if s = [] ∨ s = ['.'] then Spec.resolve t acc
    else if s = ['.', '.'] then Spec.resolve t acc.dropLast
    else Spec.resolve t (acc ++ [s])

/-- A rooted path with the given segments. -/
def Spec.render (segs : List Str) (slash : Bool) : Str :=
  '/' :: List.intercalate ['/'] segs ++ (if slash ∧ segs ≠ [] then ['/'] else [])

/-- The canonical form of a path. -/
def Spec.clean (p : Str) : Str :=
  Spec.render (Spec.resolve (splitSlash p) []) (p.getLast? = some '/')

/-- A segment that can occur in a canonical path. -/
def Spec.Proper (s : Str) : Prop := s ≠ [] ∧ s ≠ ['.'] ∧ s ≠ ['.', '.'] ∧ '/' ∉ s

/-! ## Lemmas -/

theorem resolve_fold (l st : List Str) : Spec.resolve l st.reverse = (l.foldl push st).reverse := by
  induction l generalizing st with
  | nil => rfl
  | cons a t ih =>
    rw [Spec.resolve, List.foldl_cons, push]
    split
    · exact ih st
    · split
      · rw [List.dropLast_reverse]; exact ih _
      · have := ih (a :: st)
        simpa using this

theorem intercalate_append (segs : List Str) (s : Str) (h : segs ≠ []) :
    List.intercalate ['/'] (segs ++ [s]) = List.intercalate ['/'] segs ++ '/' :: s := by
  induction segs with
  | nil => exact absurd rfl h
  | cons a t ih =>
    cases t with
    | nil => simp [List.intercalate]
    | cons b t =>
      have := ih (by simp)
      simp only [List.cons_append, List.intercalate_cons_cons] at this ⊢
      rw [this]; simp

theorem buf_render (st : List Str) : (buf st).reverse = '/' :: List.intercalate ['/'] st.reverse := by
  induction st with
  | nil => rfl
  | cons s st ih =>
    cases st with
    | nil => simp [buf, List.intercalate]
    | cons t st =>
      rw [buf_cons (by simp), List.reverse_append, List.reverse_cons, ih, List.reverse_cons (a := s),
        intercalate_append _ _ (by simp)]
      simp

theorem resolve_proper (l acc : List Str) (hl : ∀ s ∈ l, '/' ∉ s) (ha : ∀ s ∈ acc, Spec.Proper s) :
    ∀ s ∈ Spec.resolve l acc, Spec.Proper s := by
  induction l generalizing acc with
  | nil => exact ha
  | cons a t ih =>
    rw [Spec.resolve]
    have ht := fun s hs => hl s (List.mem_cons_of_mem a hs)
    split
    · exact ih _ ht ha
    · rename_i h1
      split
      · exact ih _ ht fun s hs => ha s (List.dropLast_subset _ hs)
      · rename_i h2
        refine ih _ ht fun s hs => ?_
        rcases List.mem_append.mp hs with hs | hs
        · exact ha s hs
        · simp at hs; subst hs
          exact ⟨fun e => h1 (.inl e), fun e => h1 (.inr e), h2, hl s (by simp)⟩

theorem segs_proper (p : Str) : ∀ s ∈ Spec.resolve (splitSlash p) [], Spec.Proper s :=
  resolve_proper _ _ (splitSlash_noslash p) (by simp)

theorem resolve_id (l acc : List Str) (hl : ∀ s ∈ l, Spec.Proper s) :
    Spec.resolve l acc = acc ++ l := by
  induction l generalizing acc with
  | nil => simp [Spec.resolve]
  | cons a t ih =>
    have ha := hl a (by simp)
    rw [Spec.resolve, if_neg (by simp [ha.1, ha.2.1]), if_neg ha.2.2.1,
      ih _ fun s hs => hl s (List.mem_cons_of_mem _ hs)]
    simp

/-- Splitting a rendered path gives back its segments. -/
theorem split_intercalate (segs : List Str) (hs : ∀ s ∈ segs, '/' ∉ s) (hne : segs ≠ []) :
    splitSlash (List.intercalate ['/'] segs) = segs := by
  induction segs with
  | nil => exact absurd rfl hne
  | cons a t ih =>
    cases t with
    | nil => simp [List.intercalate]; exact splitSlash_last a (hs a (by simp))
    | cons b t =>
      rw [List.intercalate_cons_cons]
      simp only [List.append_assoc, List.singleton_append]
      rw [splitSlash_seg _ _ (hs a (by simp)), ih (fun s h => hs s (List.mem_cons_of_mem _ h)) (by simp)]

theorem split_append_slash (p : Str) : splitSlash (p ++ ['/']) = splitSlash p ++ [[]] := by
  induction p with
  | nil => simp [splitSlash]
  | cons c t ih =>
    rw [List.cons_append, splitSlash, splitSlash, ih]
    split
    · rfl
    · cases h : splitSlash t with
      | nil => exact absurd h (splitSlash_ne t)
      | cons a b => rfl

theorem resolve_append (a b acc : List Str) :
    Spec.resolve (a ++ b) acc = Spec.resolve b (Spec.resolve a acc) := by
  induction a generalizing acc with
  | nil => rfl
  | cons x t ih => simp only [List.cons_append, Spec.resolve]; split <;> (try split) <;> exact ih _

theorem resolve_render (segs : List Str) (b : Bool) (hs : ∀ s ∈ segs, Spec.Proper s) :
    Spec.resolve (splitSlash (Spec.render segs b)) [] = segs := by
  unfold Spec.render
  have h0 : Spec.resolve (splitSlash ('/' :: List.intercalate ['/'] segs)) [] = segs := by
    rw [splitSlash_slash, Spec.resolve, if_pos (.inl rfl)]
    by_cases hne : segs = []
    · subst hne; simp [List.intercalate, splitSlash, Spec.resolve]
    · rw [split_intercalate segs (fun s h => (hs s h).2.2.2) hne, resolve_id _ _ hs]; rfl
  split
  · rw [split_append_slash, resolve_append, h0]; simp [Spec.resolve]
  · rw [List.append_nil, h0]

theorem getLast_intercalate (segs : List Str) (hs : ∀ s ∈ segs, Spec.Proper s) (hne : segs ≠ []) :
    ∃ c, (List.intercalate ['/'] segs).getLast? = some c ∧ c ≠ '/' := by
  have hl := List.dropLast_concat_getLast hne
  have hp := hs _ (List.getLast_mem hne)
  generalize segs.getLast hne = s at hl hp
  have hc : ∃ c, s.getLast? = some c ∧ c ≠ '/' := by
    refine ⟨s.getLast hp.1, List.getLast?_eq_some_getLast hp.1, ?_⟩
    intro h; exact hp.2.2.2 (h ▸ List.getLast_mem hp.1)
  obtain ⟨c, h1, h2⟩ := hc
  refine ⟨c, ?_, h2⟩
  rw [← hl]
  by_cases hd : segs.dropLast = []
  · rw [hd]; simpa [List.intercalate] using h1
  · rw [intercalate_append _ _ hd, List.getLast?_append, List.getLast?_cons, h1]; rfl

theorem render_last (segs : List Str) (b : Bool) (hs : ∀ s ∈ segs, Spec.Proper s) :
    (Spec.render segs b).getLast? = some '/' ↔ b = true ∨ segs = [] := by
  unfold Spec.render
  by_cases hne : segs = []
  · subst hne; simp [List.intercalate]
  · obtain ⟨c, h1, h2⟩ := getLast_intercalate segs hs hne
    cases b with
    | true => simp [hne, List.getLast?_cons]
    | false => simp [hne, List.getLast?_cons, h1, h2]

/-! ## C22 -/

/-- The cleaned path is the canonical form: resolution of the segments, rooted, with the
trailing slash of the original. In particular ".." never climbs above the root. -/
theorem pathClean_canonical (p : Str) : pathClean p = Spec.clean p := by
  have key : ∀ rest : Str, goClean rest = '/' :: List.intercalate ['/'] (Spec.resolve (splitSlash rest) []) := by
    intro rest
    unfold goClean
    have h := loop_all rest [] (by intro s hs; cases hs)
    have h' : buf [] = ['/'] := rfl
    rw [h'] at h
    rw [h, buf_render, ← resolve_fold]; rfl
  have main : ∀ rest : Str,
      (if goClean rest ≠ ['/'] ∧ ('/' :: rest).getLast? = some '/' then goClean rest ++ ['/'] else goClean rest) =
      '/' :: List.intercalate ['/'] (Spec.resolve (splitSlash rest) []) ++
        (if (rest.getLast? = some '/') ∧ Spec.resolve (splitSlash rest) [] ≠ [] then ['/'] else []) := by
    intro rest
    have hp := segs_proper rest
    rw [key rest]
    by_cases hne : Spec.resolve (splitSlash rest) [] = []
    · rw [hne]; simp [List.intercalate]
    · have hi : List.intercalate ['/'] (Spec.resolve (splitSlash rest) []) ≠ [] := by
        obtain ⟨c, h1, _⟩ := getLast_intercalate _ hp hne
        intro e; rw [e] at h1; cases h1
      have hrest : rest ≠ [] := by
        intro e; subst e; exact hne rfl
      have hl : ('/' :: rest).getLast? = rest.getLast? := by
        rw [List.getLast?_cons]
        cases hh : rest.getLast? with
        | none => exact absurd (List.getLast?_eq_none_iff.mp hh) hrest
        | some c => rfl
      rw [hl]
      simp only [ne_eq, List.cons.injEq, true_and, hi, not_false_eq_true, hne, and_true]
      split <;> simp
  match p with
  | '/' :: t =>
    show (if goClean t ≠ ['/'] ∧ ('/' :: t).getLast? = some '/' then goClean t ++ ['/'] else goClean t) = _
    rw [main t]
    unfold Spec.clean Spec.render
    have e : Spec.resolve (splitSlash ('/' :: t)) [] = Spec.resolve (splitSlash t) [] := by
      rw [splitSlash_slash, Spec.resolve, if_pos (.inl rfl)]
    rw [e]
    by_cases ht : t = []
    · subst ht; simp [splitSlash, Spec.resolve]
    · have hl : ('/' :: t).getLast? = t.getLast? := by
        rw [List.getLast?_cons]
        cases hh : t.getLast? with
        | none => exact absurd (List.getLast?_eq_none_iff.mp hh) ht
        | some c => rfl
      rw [hl]; simp
  | [] => rfl
  | c :: t =>
    by_cases hc : c = '/'
    · subst hc
      show (if goClean t ≠ ['/'] ∧ ('/' :: t).getLast? = some '/' then goClean t ++ ['/'] else goClean t) = _
      rw [main t]
      unfold Spec.clean Spec.render
      have e : Spec.resolve (splitSlash ('/' :: t)) [] = Spec.resolve (splitSlash t) [] := by
        rw [splitSlash_slash, Spec.resolve, if_pos (.inl rfl)]
      rw [e]
      by_cases ht : t = []
      · subst ht; simp [splitSlash, Spec.resolve]
      · have hl : ('/' :: t).getLast? = t.getLast? := by
          rw [List.getLast?_cons]
          cases hh : t.getLast? with
          | none => exact absurd (List.getLast?_eq_none_iff.mp hh) ht
          | some c => rfl
        rw [hl]; simp
    · have : pathClean (c :: t) = (if goClean (c :: t) ≠ ['/'] ∧ ('/' :: c :: t).getLast? = some '/'
          then goClean (c :: t) ++ ['/'] else goClean (c :: t)) := by
        unfold pathClean
        split
        rename_i x heq
        · simp only [List.cons.injEq] at heq; exact absurd heq.1 hc
        · rfl
      rw [this, main]
      unfold Spec.clean Spec.render
      simp

/-- C22. The cleaned form of every path starts with '/', is made of proper segments only,
ends with a slash iff the original did or it is the root, and cleaning it again changes
nothing. -/
theorem pathClean_good (p : Str) :
    (∃ t, pathClean p = '/' :: t) ∧
    (∃ segs b, pathClean p = Spec.render segs b ∧ ∀ s ∈ segs, Spec.Proper s) ∧
    ((pathClean p).getLast? = some '/' ↔ p.getLast? = some '/' ∨ pathClean p = ['/']) ∧
    pathClean (pathClean p) = pathClean p := by
  rw [pathClean_canonical p]
  have hp := segs_proper p
  refine ⟨⟨_, rfl⟩, ⟨_, _, rfl, hp⟩, ?_, ?_⟩
  · unfold Spec.clean
    rw [render_last _ _ hp]
    simp only [decide_eq_true_eq]
    constructor
    · rintro (h | h)
      · exact .inl h
      · right; rw [h]; simp [Spec.render, List.intercalate]
    · rintro (h | h)
      · exact .inl h
      · right
        apply Classical.byContradiction
        intro hne
        obtain ⟨c, h1, _⟩ := getLast_intercalate _ hp hne
        simp only [Spec.render, List.cons_append, List.cons.injEq, true_and, List.append_eq_nil_iff] at h
        rw [h.1] at h1; cases h1
  · rw [pathClean_canonical]
    unfold Spec.clean
    rw [resolve_render _ _ hp]
    by_cases hne : Spec.resolve (splitSlash p) [] = []
    · rw [hne]; simp [Spec.render]
    · have := render_last (Spec.resolve (splitSlash p) []) (p.getLast? = some '/') hp
      simp only [hne, or_false, decide_eq_true_eq] at this
      simp only [this]

/-- Two examples with dots, empty segments and an attempt to climb. -/
example : pathClean "/a/../../b/./c//d/".toList = "/b/c/d/".toList ∧
    pathClean "..".toList = "/".toList ∧ pathClean "x/..a/.".toList = "/x/..a".toList := by decide

end Verif.Path
