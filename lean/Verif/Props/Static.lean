import Verif.Model.Http
import Verif.Props.Path
/-
C23: static files.
-/
namespace Verif.Http

open Verif.Path (Str pathClean splitSlash goClean)
open Verif.Path.Spec (resolve render Proper)

/-- A path segment that may be used below the document root. -/
def Spec.Visible (s : Str) : Prop :=
  s ≠ [] ∧ s ≠ ['.'] ∧ s ≠ ['.', '.'] ∧ '/' ∉ s ∧ s.head? ≠ some '.' ∧ '\\' ∉ s

/-- The file named by some segments below the document root. -/
def Spec.fileIn (root : Str) (segs : List Str) : Str :=
  render (resolve (splitSlash root) [] ++ segs) false

theorem goClean_eq (rest : Str) : goClean rest = render (resolve (splitSlash rest) []) false := by
  unfold goClean
  have h := Verif.Path.loop_all rest [] (by intro s hs; cases hs)
  have h' : Verif.Path.buf [] = ['/'] := rfl
  rw [h'] at h
  rw [h, Verif.Path.buf_render, ← Verif.Path.resolve_fold]
  simp [render]

theorem split_join (a b : Str) :
    splitSlash (a ++ '/' :: b) = splitSlash a ++ splitSlash b := by
  induction a with
  | nil => simp [splitSlash]
  | cons c t ih =>
    rw [List.cons_append, splitSlash, splitSlash, ih]
    split
    · rfl
    · cases h : splitSlash t with
      | nil => exact absurd h (Verif.Path.splitSlash_ne t)
      | cons x y => rfl

theorem resolve_slash (t : Str) : resolve (splitSlash ('/' :: t)) [] = resolve (splitSlash t) [] := by
  rw [Verif.Path.splitSlash_slash, resolve, if_pos (.inl rfl)]

theorem join_eq (root p : Str) (t : Str) (hr : root = '/' :: t) :
    join root p = render (resolve (splitSlash p) (resolve (splitSlash root) [])) false := by
  subst hr
  unfold join
  simp only [List.cons_append, List.tail_cons]
  rw [goClean_eq, split_join, Verif.Path.resolve_append, resolve_slash]

theorem resolve_visible (l acc : List Str) (hl : ∀ s ∈ l, s = [] ∨ Spec.Visible s) :
    resolve l acc = acc ++ l.filter (· ≠ []) := by
  induction l generalizing acc with
  | nil => simp [resolve]
  | cons a t ih =>
    have ht := fun s hs => hl s (List.mem_cons_of_mem a hs)
    rw [resolve]
    rcases hl a (by simp) with rfl | hv
    · rw [if_pos (.inl rfl), ih _ ht]; simp
    · rw [if_neg (by simp [hv.1, hv.2.1]), if_neg hv.2.2.1, ih _ ht]
      simp [hv.1]

theorem render_join (root : Str) (segs : List Str) (x : Str) (hr : ∃ t, root = '/' :: t)
    (hs : ∀ s ∈ segs, Spec.Visible s) (hx : Spec.Visible x) :
    join (Spec.fileIn root segs) x = Spec.fileIn root (segs ++ [x]) := by
  have hall : ∀ s ∈ resolve (splitSlash root) [] ++ segs, Proper s := by
    intro s h
    rcases List.mem_append.mp h with h | h
    · exact Verif.Path.segs_proper root s h
    · have := hs s h; exact ⟨this.1, this.2.1, this.2.2.1, this.2.2.2.1⟩
  have hf : ∃ t, Spec.fileIn root segs = '/' :: t := ⟨_, rfl⟩
  obtain ⟨t, ht⟩ := hf
  rw [join_eq _ _ t ht]
  have h1 : resolve (splitSlash (Spec.fileIn root segs)) [] = resolve (splitSlash root) [] ++ segs := by
    unfold Spec.fileIn
    exact Verif.Path.resolve_render _ _ hall
  rw [h1, Verif.Path.splitSlash_last x hx.2.2.2.1,
    resolve_visible _ _ (by intro s h; simp at h; subst h; exact .inr hx)]
  unfold Spec.fileIn
  simp [hx.1]

/-- C23. Whatever the request, every file opened lies below the document root and is reached by
segments that are neither empty nor "." nor "..", do not start with a dot and contain no slash
or backslash; files are opened only if there is a document root, for GET and HEAD, and for a
path that is already clean; the file served is the one opened. -/
theorem static_confined (c : Ctx) (root pre : Str) (method : String) (path : Str)
    (hroot : root = [] ∨ ∃ t, root = '/' :: t) :
    (∀ f ∈ (serveStatic c root pre method path).2,
      ∃ segs, (∀ s ∈ segs, Spec.Visible s) ∧ f = Spec.fileIn root segs) ∧
    ((serveStatic c root pre method path).2 ≠ [] →
      root ≠ [] ∧ (method = "GET" ∨ method = "HEAD") ∧ pathClean path = path) ∧
    (∀ f, (serveStatic c root pre method path).1 = .served f →
      (serveStatic c root pre method path).2 = [f] ∧ c.stat f = some .regular) := by
  unfold serveStatic
  split
  · simp
  rename_i hne
  obtain ⟨t, ht⟩ := hroot.resolve_left hne
  split
  · simp
  rename_i hm
  have hm : method = "GET" ∨ method = "HEAD" := by
    by_cases h : method = "GET"
    · exact .inl h
    · right; exact Classical.not_not.mp fun h' => hm ⟨h, h'⟩
  dsimp only
  split
  · simp
  rename_i hclean
  have hclean := Classical.not_not.mp hclean
  generalize (if pre.isPrefixOf (pathClean path) = true then List.drop pre.length (pathClean path)
    else pathClean path) = p1
  generalize (if ['/'].isPrefixOf p1 = true then List.drop 1 p1 else p1) = p
  split
  · simp
  rename_i hany
  have hvis : ∀ s ∈ splitSlash p, s = [] ∨ Spec.Visible s := by
    intro s hs
    have h := hany
    simp only [List.any_eq_true, not_exists, not_and] at h
    have h := h s hs
    simp only [Bool.or_eq_true, not_or] at h
    have h1 : s.head? ≠ some '.' := by
      intro he
      cases s with
      | nil => cases he
      | cons x t => simp at he; subst he; simp at h
    have h2 : '\\' ∉ s := by
      intro hm; exact h.2 (List.contains_iff_mem.mpr hm)
    by_cases h0 : s = []
    · exact .inl h0
    · right
      refine ⟨h0, ?_, ?_, Verif.Path.splitSlash_noslash p s hs, h1, h2⟩
      · rintro rfl; exact h1 rfl
      · rintro rfl; exact h1 rfl
  have hf : join root p = Spec.fileIn root ((splitSlash p).filter (· ≠ [])) := by
    rw [join_eq root p t ht, resolve_visible _ _ hvis]; rfl
  have hsegs : ∀ s ∈ (splitSlash p).filter (· ≠ []), Spec.Visible s := by
    intro s hs
    simp only [List.mem_filter, decide_eq_true_eq] at hs
    exact (hvis s hs.1).resolve_left hs.2
  have hidx : join (join root p) "index.html".toList =
      Spec.fileIn root ((splitSlash p).filter (· ≠ []) ++ ["index.html".toList]) := by
    rw [hf]
    exact render_join root _ _ ⟨t, ht⟩ hsegs (by unfold Spec.Visible; decide)
  generalize hF : join root p = F at hf hidx
  generalize hG : join F "index.html".toList = G at hidx
  have hin : ∃ segs, (∀ s ∈ segs, Spec.Visible s) ∧ F = Spec.fileIn root segs := ⟨_, hsegs, hf⟩
  have hin2 : ∃ segs, (∀ s ∈ segs, Spec.Visible s) ∧ G = Spec.fileIn root segs := by
    refine ⟨_, ?_, hidx⟩
    intro s hs
    rcases List.mem_append.mp hs with hs | hs
    · exact hsegs s hs
    · simp only [List.mem_singleton] at hs; subst hs; unfold Spec.Visible; decide
  have hsum : root ≠ [] ∧ (method = "GET" ∨ method = "HEAD") ∧ pathClean path = path :=
    ⟨hne, hm, hclean⟩
  cases hst : c.stat F with
  | none => simp
  | some k =>
    cases k with
    | dir =>
      dsimp only
      split
      · simp
      · cases hst2 : c.stat G with
        | none => simp
        | some k =>
          cases k with
          | dir => simp
          | regular =>
            simp only [List.mem_singleton, forall_eq, StaticRes.served.injEq]
            refine ⟨hin2, fun _ => hsum, ?_⟩
            rintro f rfl; exact ⟨rfl, hst2⟩
          | other =>
            simp only [List.mem_singleton, forall_eq]
            exact ⟨hin2, fun _ => hsum, by simp⟩
    | regular =>
      dsimp only
      split
      · simp
      · simp only [if_true, List.mem_singleton, forall_eq, StaticRes.served.injEq]
        refine ⟨hin, fun _ => hsum, ?_⟩
        rintro f rfl; exact ⟨rfl, hst⟩
    | other =>
      dsimp only
      split
      · simp
      · rw [if_neg (by decide)]
        simp only [List.mem_singleton, forall_eq]
        exact ⟨hin, fun _ => hsum, by simp⟩

/-- The answers to a path that is not clean: never a file, only a redirect (or an error that
does not depend on the file system). -/
theorem static_unclean_redirected (c : Ctx) (root pre : Str) (method : String) (path : Str)
    (h : pathClean path ≠ path) :
    serveStatic c root pre method path = (.notFound, []) ∨
    serveStatic c root pre method path = (.methodNotAllowed, []) ∨
    serveStatic c root pre method path = (.redirect (pathClean path), []) := by
  unfold serveStatic
  split
  · exact .inl rfl
  split
  · exact .inr (.inl rfl)
  · dsimp only
    rw [if_pos h]; exact .inr (.inr rfl)

/-- Non-vacuity: a file below an override prefix is served, dot files are not. -/
example :
    let c : Ctx := { stat := fun f => if f = "/www/a/b.txt".toList then some .regular else none }
    serveStatic c "/www".toList "/pub/".toList "GET" "/pub/a/b.txt".toList =
      (.served "/www/a/b.txt".toList, ["/www/a/b.txt".toList]) ∧
    serveStatic c "/www".toList "/pub/".toList "GET" "/pub/.git/x".toList = (.notFound, []) ∧
    serveStatic c "/www".toList "/pub/".toList "GET" "/pub/../etc".toList =
      (.redirect "/etc".toList, []) := by decide

end Verif.Http
