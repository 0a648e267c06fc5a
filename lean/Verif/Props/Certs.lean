import Verif.Model.Certs
/-
C114: which certificate is presented.
-/
namespace Verif.Certs

open Verif.Path (Str)

/-! ## Specification: patterns for server names -/

/-- A character in brackets, possibly escaped. -/
inductive Spec.Elem : Str → Char → Prop
  | plain {c} : c ≠ '\\' → c ≠ '-' → c ≠ ']' → Spec.Elem [c] c
  | esc (c) : Spec.Elem ['\\', c] c

inductive Spec.Range : Str → Char × Char → Prop
  | one {w c} : Spec.Elem w c → Spec.Range w (c, c)
  | fromTo {w x lo hi} : Spec.Elem w lo → Spec.Elem x hi → Spec.Range (w ++ '-' :: x) (lo, hi)

inductive Spec.Ranges : Str → List (Char × Char) → Prop
  | nil : Spec.Ranges [] []
  | cons {w v r rs} : Spec.Range w r → Spec.Ranges v rs → Spec.Ranges (w ++ v) (r :: rs)

/-- What is between the brackets: whether it is negated, and the ranges. -/
inductive Spec.Class : Str → Bool → List (Char × Char) → Prop
  | pos {w rs} : w.head? ≠ some '^' → Spec.Ranges w rs → rs ≠ [] → Spec.Class w false rs
  | neg {w rs} : Spec.Ranges w rs → rs ≠ [] → Spec.Class ('^' :: w) true rs

/-- The pattern matches the name. A star is any number of characters, a question mark is any one, neither is
a slash. -/
inductive Spec.Matches : Str → Str → Prop
  | nil : Spec.Matches [] []
  | starNone {p n} : Spec.Matches p n → Spec.Matches ('*' :: p) n
  | starMore {p n c} : c ≠ '/' → Spec.Matches ('*' :: p) n → Spec.Matches ('*' :: p) (c :: n)
  | any {p n c} : c ≠ '/' → Spec.Matches p n → Spec.Matches ('?' :: p) (c :: n)
  | esc {p n} (c) : Spec.Matches p n → Spec.Matches ('\\' :: c :: p) (c :: n)
  | lit {p n c} : c ∉ ['*', '?', '[', '\\'] → Spec.Matches p n → Spec.Matches (c :: p) (c :: n)
  | cls {w neg rs p n c} : Spec.Class w neg rs → ((∃ r ∈ rs, r.1 ≤ c ∧ c ≤ r.2) ↔ neg = false) →
      Spec.Matches p n → Spec.Matches ('[' :: w ++ ']' :: p) (c :: n)

/-- The pattern is well-formed. -/
inductive Spec.WF : Str → Prop
  | nil : Spec.WF []
  | star {p} : Spec.WF p → Spec.WF ('*' :: p)
  | any {p} : Spec.WF p → Spec.WF ('?' :: p)
  | esc {p} (c) : Spec.WF p → Spec.WF ('\\' :: c :: p)
  | lit {p c} : c ∉ ['*', '?', '[', '\\'] → Spec.WF p → Spec.WF (c :: p)
  | cls {w neg rs p} : Spec.Class w neg rs → Spec.WF p → Spec.WF ('[' :: w ++ ']' :: p)

/-- An entry of `tlsCertificates` is for the name. -/
def Spec.For (e : Entry) (n : Str) : Prop := ∃ v ∈ e.serverNames, v = n ∨ Spec.Matches v n

/-! ## Brackets -/

theorem getEsc_sound {s t : Str} {c : Char} (h : getEsc s = some (c, t)) :
    t ≠ [] ∧ ∃ w, Spec.Elem w c ∧ s = w ++ t := by
  unfold getEsc at h
  split at h
  · cases h
  · cases h; exact ⟨by simp, _, .esc _, rfl⟩
  · cases h
  · rename_i hne
    split at h
    · cases h
    · rename_i c' _ _ hn hc
      cases h
      refine ⟨by simp, _, .plain ?_ ?_ ?_, rfl⟩
      · intro hb; simp_all
      · exact fun hb => hc (.inl hb)
      · exact fun hb => hc (.inr hb)
  · cases h

theorem getEsc_complete {w t : Str} {c : Char} (h : Spec.Elem w c) (ht : t ≠ []) : getEsc (w ++ t) = some (c, t) := by
  obtain ⟨d, t, rfl⟩ := List.exists_cons_of_ne_nil ht
  cases h with
  | plain h1 h2 h3 =>
    show getEsc (c :: d :: t) = _
    unfold getEsc
    split
    · rename_i h; cases h
    · rename_i h; cases h; exact absurd rfl h1
    · rename_i h; cases h; exact absurd rfl h1
    · rename_i h; cases h; rw [if_neg (by simp [h2, h3])]
    · rename_i h; cases h
  | esc => rfl

theorem elem_head {w : Str} {c : Char} (h : Spec.Elem w c) : ∃ d w', w = d :: w' ∧ d ≠ ']' ∧ d ≠ '-' := by
  cases h with
  | plain h1 h2 h3 => exact ⟨_, _, rfl, h3, h2⟩
  | esc => exact ⟨_, _, rfl, by decide, by decide⟩

theorem range_head {w : Str} {r : Char × Char} (h : Spec.Range w r) : ∃ d w', w = d :: w' ∧ d ≠ ']' ∧ d ≠ '-' := by
  cases h with
  | one h => exact elem_head h
  | fromTo h _ =>
    obtain ⟨d, w', rfl, h1, h2⟩ := elem_head h
    exact ⟨_, _, rfl, h1, h2⟩

theorem getRange_sound {s t : Str} {r : Char × Char} (h : getRange s = some (r, t)) :
    t ≠ [] ∧ ∃ w, Spec.Range w r ∧ s = w ++ t := by
  unfold getRange at h
  split at h
  · cases h
  · rename_i hg
    obtain ⟨-, w, hw, rfl⟩ := getEsc_sound hg
    split at h
    · cases h
    · rename_i hg'
      obtain ⟨ht, x, hx, rfl⟩ := getEsc_sound hg'
      cases h
      exact ⟨ht, _, .fromTo hw hx, by simp⟩
  · rename_i hg
    obtain ⟨ht, w, hw, rfl⟩ := getEsc_sound hg
    cases h
    exact ⟨ht, _, .one hw, rfl⟩

theorem getRange_complete {w t : Str} {r : Char × Char} (h : Spec.Range w r) (ht : t ≠ []) (hd : t.head? ≠ some '-') :
    getRange (w ++ t) = some (r, t) := by
  unfold getRange
  cases h with
  | one h =>
    rw [getEsc_complete h ht]
    split
    · rename_i h; cases h
    · rename_i h; cases h; exact absurd rfl hd
    · rename_i h; cases h; rfl
  | @fromTo w x _ _ h h' =>
    rw [List.append_assoc, getEsc_complete h (by simp)]
    simp [getEsc_complete h' ht]

theorem getRanges_sound {acc rs : List (Char × Char)} {s u : Str} (h : getRanges acc s = some (rs, u)) :
    ∃ w l, Spec.Ranges w l ∧ s = w ++ ']' :: u ∧ rs = acc ++ l ∧ rs ≠ [] := by
  fun_induction getRanges acc s with
  | case1 acc s hc =>
    cases h
    cases s with
    | nil => simp at hc
    | cons a s =>
      refine ⟨[], [], .nil, ?_, by simp, hc.1⟩
      have := hc.2
      simp at this
      simp [this]
  | case2 acc s hc hr => cases h
  | case3 acc s hc r t hr ih =>
    obtain ⟨w, l, h1, rfl, rfl, h3⟩ := ih h
    obtain ⟨-, x, hx, rfl⟩ := getRange_sound hr
    exact ⟨x ++ w, r :: l, .cons hx h1, by simp, by simp, by simp⟩

theorem ranges_head {w : Str} {l : List (Char × Char)} (h : Spec.Ranges w l) (u : Str) :
    (w ++ ']' :: u).head? ≠ some '-' := by
  cases h with
  | nil => simp
  | cons h _ =>
    obtain ⟨d, w', rfl, h1, h2⟩ := range_head h
    simp [h2]

theorem getRanges_complete {w u : Str} {l : List (Char × Char)} (h : Spec.Ranges w l) :
    ∀ acc, acc ++ l ≠ [] → getRanges acc (w ++ ']' :: u) = some (acc ++ l, u) := by
  induction h with
  | nil =>
    intro acc ha
    unfold getRanges
    rw [if_pos ⟨by simpa using ha, rfl⟩]
    simp
  | @cons w v r rs hr hrs ih =>
    intro acc ha
    unfold getRanges
    obtain ⟨d, w', hw, h1, h2⟩ := range_head hr
    rw [if_neg (by rw [hw]; simp [h1])]
    have hg : getRange (w ++ v ++ ']' :: u) = some (r, v ++ ']' :: u) := by
      rw [List.append_assoc]
      exact getRange_complete hr (by simp) (ranges_head hrs u)
    split
    · rename_i h; rw [hg] at h; cases h
    · rename_i h
      rw [hg] at h
      cases h
      rw [ih _ (by simp)]
      simp

theorem getClass_iff (s u : Str) (k : Tok) :
    getClass s = some (k, u) ↔ ∃ w neg rs, Spec.Class w neg rs ∧ s = w ++ ']' :: u ∧ k = .cls neg rs := by
  constructor
  · intro h
    unfold getClass at h
    split at h
    · split at h
      · cases h
      · rename_i hr
        obtain ⟨w, l, h1, rfl, rfl, h2⟩ := getRanges_sound hr
        cases h
        exact ⟨_, _, _, .neg h1 h2, rfl, rfl⟩
    · rename_i hne
      split at h
      · cases h
      · rename_i hr
        obtain ⟨w, l, h1, rfl, rfl, h2⟩ := getRanges_sound hr
        cases h
        refine ⟨_, _, _, .pos ?_ h1 h2, rfl, rfl⟩
        intro hw
        cases w with
        | nil => cases hw
        | cons a w => cases hw; exact hne _ rfl
  · rintro ⟨w, neg, rs, hc, rfl, rfl⟩
    cases hc with
    | pos hw hr hn =>
      unfold getClass
      split
      · rename_i h
        exfalso
        cases w with
        | nil => cases h
        | cons a w => cases h; exact hw rfl
      · rw [getRanges_complete hr [] (by simpa using hn)]
        rfl
    | neg hr hn =>
      show getClass ('^' :: (_ ++ ']' :: u)) = _
      simp only [getClass, getRanges_complete hr [] (by simpa using hn)]
      rfl

/-! ## Patterns as lists of items -/

inductive Item where
  | star
  | tok (k : Tok)

inductive Parses : Str → List Item → Prop
  | nil : Parses [] []
  | star {p l} : Parses p l → Parses ('*' :: p) (.star :: l)
  | any {p l} : Parses p l → Parses ('?' :: p) (.tok .any :: l)
  | esc {p l} (c) : Parses p l → Parses ('\\' :: c :: p) (.tok (.lit c) :: l)
  | lit {p l c} : c ∉ ['*', '?', '[', '\\'] → Parses p l → Parses (c :: p) (.tok (.lit c) :: l)
  | cls {w neg rs p l} : Spec.Class w neg rs → Parses p l → Parses ('[' :: w ++ ']' :: p) (.tok (.cls neg rs) :: l)

def IMatches : List Item → Str → Prop
  | [], n => n = []
  | .star :: l, n => ∃ a b, n = a ++ b ∧ '/' ∉ a ∧ IMatches l b
  | .tok _ :: _, [] => False
  | .tok k :: l, c :: n => k.accepts c = true ∧ IMatches l n

theorem wf_iff (p : Str) : Spec.WF p ↔ ∃ l, Parses p l := by
  constructor
  · intro h
    induction h with
    | nil => exact ⟨_, .nil⟩
    | star _ ih => obtain ⟨l, h⟩ := ih; exact ⟨_, .star h⟩
    | any _ ih => obtain ⟨l, h⟩ := ih; exact ⟨_, .any h⟩
    | esc c _ ih => obtain ⟨l, h⟩ := ih; exact ⟨_, .esc c h⟩
    | lit hc _ ih => obtain ⟨l, h⟩ := ih; exact ⟨_, .lit hc h⟩
    | cls hc _ ih => obtain ⟨l, h⟩ := ih; exact ⟨_, .cls hc h⟩
  · rintro ⟨l, h⟩
    induction h with
    | nil => exact .nil
    | star _ ih => exact .star ih
    | any _ ih => exact .any ih
    | esc c _ ih => exact .esc c ih
    | lit hc _ ih => exact .lit hc ih
    | cls hc _ ih => exact .cls hc ih

theorem accepts_cls (neg : Bool) (rs : List (Char × Char)) (c : Char) :
    (Tok.cls neg rs).accepts c = true ↔ ((∃ r ∈ rs, r.1 ≤ c ∧ c ≤ r.2) ↔ neg = false) := by
  show ((rs.any fun r => decide (r.1 ≤ c ∧ c ≤ r.2)) != neg) = true ↔ _
  have h : (rs.any fun r => decide (r.1 ≤ c ∧ c ≤ r.2)) = true ↔ ∃ r ∈ rs, r.1 ≤ c ∧ c ≤ r.2 := by
    simp [List.any_eq_true]
  rw [← h]
  generalize (rs.any fun r => decide (r.1 ≤ c ∧ c ≤ r.2)) = x
  cases x <;> cases neg <;> decide

theorem parses_star {p : Str} {l : List Item} (h : Parses ('*' :: p) l) : ∃ l', l = .star :: l' ∧ Parses p l' := by
  generalize hq : '*' :: p = q at h
  cases h with
  | star h => cases hq; exact ⟨_, rfl, h⟩
  | lit hc h => cases hq; exact absurd hc (by decide)
  | nil => cases hq
  | any => cases hq
  | esc => cases hq
  | cls => cases hq

theorem matches_parses {p n : Str} (h : Spec.Matches p n) : ∃ l, Parses p l ∧ IMatches l n := by
  induction h with
  | nil => exact ⟨_, .nil, rfl⟩
  | starNone _ ih => obtain ⟨l, h, hi⟩ := ih; exact ⟨_, .star h, [], _, rfl, by simp, hi⟩
  | starMore hc _ ih =>
    obtain ⟨l, h, hi⟩ := ih
    obtain ⟨l', rfl, h'⟩ := parses_star h
    obtain ⟨a, b, rfl, ha, hb⟩ := hi
    exact ⟨_, h, _ :: a, b, rfl, by simp [ha, Ne.symm hc], hb⟩
  | any hc _ ih => obtain ⟨l, h, hi⟩ := ih; exact ⟨_, .any h, by simp [Tok.accepts, hc], hi⟩
  | esc c _ ih => obtain ⟨l, h, hi⟩ := ih; exact ⟨_, .esc c h, by simp [Tok.accepts], hi⟩
  | lit hc _ ih => obtain ⟨l, h, hi⟩ := ih; exact ⟨_, .lit hc h, by simp [Tok.accepts], hi⟩
  | cls hc hr _ ih => obtain ⟨l, h, hi⟩ := ih; exact ⟨_, .cls hc h, (accepts_cls _ _ _).mpr hr, hi⟩

theorem parses_matches {p : Str} {l : List Item} (h : Parses p l) : ∀ n, IMatches l n → Spec.Matches p n := by
  induction h with
  | nil => intro n hn; cases hn; exact .nil
  | star _ ih =>
    rintro n ⟨a, b, rfl, ha, hb⟩
    induction a with
    | nil => exact .starNone (ih _ hb)
    | cons c a iha =>
      simp at ha
      exact .starMore (Ne.symm ha.1) (iha (by simpa using ha.2))
  | any _ ih =>
    rintro (_ | ⟨c, n⟩) hn
    · exact hn.elim
    · exact .any (by simpa [Tok.accepts] using hn.1) (ih _ hn.2)
  | esc c _ ih =>
    rintro (_ | ⟨d, n⟩) hn
    · exact hn.elim
    · have := hn.1
      simp [Tok.accepts] at this
      subst this
      exact .esc _ (ih _ hn.2)
  | lit hc _ ih =>
    rintro (_ | ⟨d, n⟩) hn
    · exact hn.elim
    · have := hn.1
      simp only [Tok.accepts, decide_eq_true_eq] at this
      subst this
      exact .lit hc (ih _ hn.2)
  | cls hc _ ih =>
    rintro (_ | ⟨d, n⟩) hn
    · exact hn.elim
    · exact .cls hc ((accepts_cls _ _ _).mp hn.1) (ih _ hn.2)

/-! ## scanChunk -/

theorem scan_append (b : Bool) (p : Str) : (scan b p).1 ++ (scan b p).2 = p := by
  fun_induction scan b p <;> simp +zetaDelta <;> assumption

theorem scan_rest (b : Bool) (p : Str) : (scan b p).2 = [] ∨ ∃ t, (scan b p).2 = '*' :: t := by
  fun_induction scan b p <;> simp +zetaDelta <;> assumption

theorem scan_elem {w : Str} {c : Char} (h : Spec.Elem w c) (x : Str) :
    scan true (w ++ x) = (w ++ (scan true x).1, (scan true x).2) := by
  cases h with
  | plain h1 h2 h3 =>
    show scan true (c :: x) = _
    rw [scan.eq_def]
    split
    · rename_i h; cases h; exact absurd rfl h1
    · rename_i h; cases h; rfl
    · rename_i h; cases h; exact absurd rfl h3
    · rename_i h; cases h; rfl
    · rename_i h; cases h; rfl
    · rename_i h; cases h
  | esc c => rfl

theorem scan_range {w : Str} {r : Char × Char} (h : Spec.Range w r) (x : Str) :
    scan true (w ++ x) = (w ++ (scan true x).1, (scan true x).2) := by
  cases h with
  | one h => exact scan_elem h x
  | @fromTo w y _ _ h h' =>
    rw [List.append_assoc, scan_elem h]
    show (w ++ (scan true ('-' :: (y ++ x))).1, (scan true ('-' :: (y ++ x))).2) = _
    have : scan true ('-' :: (y ++ x)) = ('-' :: (scan true (y ++ x)).1, (scan true (y ++ x)).2) := by
      rw [scan.eq_def]; rfl
    rw [this, scan_elem h']
    simp

theorem scan_ranges {w : Str} {l : List (Char × Char)} (h : Spec.Ranges w l) (x : Str) :
    scan true (w ++ x) = (w ++ (scan true x).1, (scan true x).2) := by
  induction h with
  | nil => rfl
  | cons hr _ ih => rw [List.append_assoc, scan_range hr, ih]; simp

theorem scan_close (u : Str) : scan true (']' :: u) = (']' :: (scan false u).1, (scan false u).2) := by
  rw [scan.eq_def]; rfl

theorem scan_class {w : Str} {neg : Bool} {rs : List (Char × Char)} (h : Spec.Class w neg rs) (u : Str) :
    scan true (w ++ ']' :: u) = (w ++ ']' :: (scan false u).1, (scan false u).2) := by
  cases h with
  | pos _ hr _ => rw [scan_ranges hr, scan_close]
  | @neg w _ hr _ =>
    show scan true ('^' :: (w ++ ']' :: u)) = _
    have : scan true ('^' :: (w ++ ']' :: u)) = ('^' :: (scan true (w ++ ']' :: u)).1, (scan true (w ++ ']' :: u)).2) := by
      rw [scan.eq_def]; rfl
    rw [this, scan_ranges hr, scan_close]
    rfl

theorem scan_lit {c : Char} (hc : c ∉ ['*', '[', '\\']) (p : Str) :
    scan false (c :: p) = (c :: (scan false p).1, (scan false p).2) := by
  simp at hc
  rw [scan.eq_def]
  split
  · rename_i h; cases h; exact absurd rfl hc.2.2
  · rename_i h; cases h; exact absurd rfl hc.2.1
  · rename_i h; cases h; rfl
  · rename_i h; cases h; exact absurd rfl hc.1
  · rename_i h; cases h; rfl
  · rename_i h; cases h

theorem toks_lit {c : Char} (hc : c ∉ ['?', '[', '\\']) (p : Str) :
    toks (c :: p) = (toks p).map (.lit c :: ·) := by
  simp at hc
  rw [toks.eq_def]
  split
  · rename_i h; cases h
  · rename_i h; cases h; exact absurd rfl hc.2.1
  · rename_i h; cases h; exact absurd rfl hc.1
  · rename_i h; cases h; exact absurd rfl hc.2.2
  · rename_i h; cases h; exact absurd rfl hc.2.2
  · rename_i h; cases h; rfl

theorem toks_cls {w : Str} {neg : Bool} {rs : List (Char × Char)} (h : Spec.Class w neg rs) (u : Str) :
    toks ('[' :: (w ++ ']' :: u)) = (toks u).map (.cls neg rs :: ·) := by
  have hg := (getClass_iff (w ++ ']' :: u) u (.cls neg rs)).mpr ⟨w, neg, rs, h, rfl, rfl⟩
  rw [toks]
  split
  · rename_i h; rw [hg] at h; cases h
  · rename_i h; rw [hg] at h; cases h; rfl

/-- Reading a pattern chunk by chunk, one way. -/
theorem parses_scan {q : Str} {l : List Item} (h : Parses q l) :
    ∃ ks js, toks (scan false q).1 = some ks ∧ Parses (scan false q).2 js ∧ l = ks.map .tok ++ js := by
  induction h with
  | nil => exact ⟨[], [], by rw [scan.eq_def, toks], .nil, rfl⟩
  | @star p l h ih =>
    have : scan false ('*' :: p) = ([], '*' :: p) := by rw [scan.eq_def]; rfl
    rw [this]
    exact ⟨[], _, by rw [toks], .star h, rfl⟩
  | any h ih =>
    obtain ⟨ks, js, h1, h2, rfl⟩ := ih
    rw [scan_lit (by decide)]
    exact ⟨.any :: ks, js, by dsimp only; rw [toks, h1]; rfl, h2, rfl⟩
  | @esc p l c h ih =>
    obtain ⟨ks, js, h1, h2, rfl⟩ := ih
    have : scan false ('\\' :: c :: p) = ('\\' :: c :: (scan false p).1, (scan false p).2) := by rw [scan.eq_def]; rfl
    rw [this]
    exact ⟨.lit c :: ks, js, by dsimp only; rw [toks, h1]; rfl, h2, rfl⟩
  | @lit p l c hc h ih =>
    obtain ⟨ks, js, h1, h2, rfl⟩ := ih
    simp at hc
    rw [scan_lit (by simp [hc])]
    exact ⟨.lit c :: ks, js, by dsimp only; rw [toks_lit (by simp [hc]), h1]; rfl, h2, rfl⟩
  | @cls w neg rs p l hc h ih =>
    obtain ⟨ks, js, h1, h2, rfl⟩ := ih
    have : scan false ('[' :: (w ++ ']' :: p)) = ('[' :: (w ++ ']' :: (scan false p).1), (scan false p).2) := by
      have h' : scan false ('[' :: (w ++ ']' :: p)) =
          ('[' :: (scan true (w ++ ']' :: p)).1, (scan true (w ++ ']' :: p)).2) := by rw [scan.eq_def]; rfl
      rw [h', scan_class hc]
    rw [List.cons_append, this]
    exact ⟨.cls neg rs :: ks, js, by dsimp only; rw [toks_cls hc, h1]; rfl, h2, rfl⟩

/-- Reading a pattern chunk by chunk, the other way. -/
theorem scan_parses (m : Nat) : ∀ (q : Str) (ks : List Tok) (js : List Item), q.length ≤ m →
    toks (scan false q).1 = some ks → Parses (scan false q).2 js → Parses q (ks.map .tok ++ js) := by
  induction m with
  | zero =>
    intro q ks js hq h1 h2
    obtain rfl := List.eq_nil_of_length_eq_zero (Nat.le_zero.mp hq)
    rw [scan.eq_def] at h1 h2
    dsimp only at h1 h2
    rw [toks] at h1
    cases h1
    exact h2
  | succ m ih =>
    intro q ks js hq h1 h2
    match q with
    | [] => exact ih [] ks js (by simp) h1 h2
    | c :: t =>
      simp at hq
      by_cases hs : c = '*'
      · subst hs
        have : scan false ('*' :: t) = ([], '*' :: t) := by rw [scan.eq_def]; rfl
        rw [this] at h1 h2
        dsimp only at h1 h2
        rw [toks] at h1
        cases h1
        exact h2
      by_cases hb : c = '\\'
      · subst hb
        match t with
        | [] =>
          exfalso
          have : scan false ['\\'] = (['\\'], []) := by decide +kernel
          rw [this] at h1
          simp [toks] at h1
        | d :: t =>
          have : scan false ('\\' :: d :: t) = ('\\' :: d :: (scan false t).1, (scan false t).2) := by rw [scan.eq_def]; rfl
          rw [this] at h1 h2
          dsimp only at h1 h2
          rw [toks] at h1
          simp at h1 hq
          obtain ⟨a, h1, rfl⟩ := h1
          exact .esc d (ih t a js (by omega) h1 h2)
      by_cases hc : c = '['
      · subst hc
        have : scan false ('[' :: t) = ('[' :: (scan true t).1, (scan true t).2) := by rw [scan.eq_def]; rfl
        rw [this] at h1 h2
        dsimp only at h1 h2
        rw [toks] at h1
        split at h1
        · cases h1
        · rename_i k u hg
          obtain ⟨w, neg, rs, hcl, hw, rfl⟩ := (getClass_iff _ _ _).mp hg
          have ht : t = w ++ ']' :: (u ++ (scan true t).2) := by
            have := scan_append true t
            rw [hw] at this
            simpa using this.symm
          have hsc := scan_class hcl (u ++ (scan true t).2)
          rw [← ht] at hsc
          have hu : u = (scan false (u ++ (scan true t).2)).1 := by
            have := congrArg Prod.fst hsc
            rw [hw] at this
            simpa using this
          have hr : (scan true t).2 = (scan false (u ++ (scan true t).2)).2 := by
            have := congrArg Prod.snd hsc
            exact this
          rw [hr] at h2
          simp at h1
          obtain ⟨a, h1, rfl⟩ := h1
          rw [hu] at h1
          have hlen : (u ++ (scan true t).2).length ≤ m := by
            have := congrArg List.length ht
            simp at this ⊢
            omega
          have := ih _ a js hlen h1 h2
          have := Parses.cls hcl this
          rw [List.cons_append, ← ht] at this
          exact this
      · rw [scan_lit (by simp [hs, hb, hc])] at h1 h2
        dsimp only at h1 h2
        by_cases hq' : c = '?'
        · subst hq'
          rw [toks] at h1
          simp at h1
          obtain ⟨a, h1, rfl⟩ := h1
          exact .any (ih t a js hq h1 h2)
        · rw [toks_lit (by simp [hb, hc, hq'])] at h1
          simp at h1
          obtain ⟨a, h1, rfl⟩ := h1
          exact .lit (by simp [hs, hb, hc, hq']) (ih t a js hq h1 h2)

/-! ## Stars -/

theorem stars_split (p : Str) : ∃ k, p = List.replicate k '*' ++ (stars p).2 ∧ ((stars p).1 = true ↔ 0 < k) ∧
    (stars p).2.head? ≠ some '*' := by
  unfold stars
  dsimp only
  induction p with
  | nil => exact ⟨0, by simp⟩
  | cons c p ih =>
    by_cases hc : c = '*'
    · subst hc
      obtain ⟨k, h1, -, h3⟩ := ih
      refine ⟨k + 1, ?_, by simp, by simpa using h3⟩
      simp [List.replicate_succ]
      exact h1
    · exact ⟨0, by simp [hc]⟩

theorem parses_stars (k : Nat) (q : Str) (l : List Item) :
    Parses (List.replicate k '*' ++ q) l ↔ ∃ js, l = List.replicate k .star ++ js ∧ Parses q js := by
  induction k generalizing l with
  | zero => simp
  | succ k ih =>
    constructor
    · intro h
      obtain ⟨l', rfl, h'⟩ := parses_star h
      obtain ⟨js, rfl, hj⟩ := (ih l').mp h'
      exact ⟨js, rfl, hj⟩
    · rintro ⟨js, rfl, hj⟩
      exact .star ((ih _).mpr ⟨js, rfl, hj⟩)

theorem imatches_stars (k : Nat) (l : List Item) (n : Str) :
    IMatches (List.replicate (k + 1) .star ++ l) n ↔ IMatches (.star :: l) n := by
  induction k generalizing n with
  | zero => rfl
  | succ k ih =>
    constructor
    · rintro ⟨a, b, rfl, ha, hb⟩
      obtain ⟨a', b', rfl, ha', hb'⟩ := (ih b).mp hb
      exact ⟨a ++ a', b', by simp, by simp [ha, ha'], hb'⟩
    · intro h
      exact ⟨[], n, rfl, by simp, (ih n).mpr h⟩

theorem imatches_toks (ks : List Tok) (js : List Item) (n : Str) :
    IMatches (ks.map .tok ++ js) n ↔ ∃ t, matchToks ks n = some t ∧ IMatches js t := by
  induction ks generalizing n with
  | nil => simp [matchToks]
  | cons k ks ih =>
    cases n with
    | nil => simp [IMatches, matchToks]
    | cons c n =>
      simp only [List.map_cons, List.cons_append, IMatches, matchToks, ih]
      cases k.accepts c <;> simp

theorem matchToks_drop {ks : List Tok} {n t : Str} (h : matchToks ks n = some t) :
    t = n.drop ks.length ∧ ks.length ≤ n.length := by
  induction ks generalizing n with
  | nil => cases h; simp
  | cons k ks ih =>
    cases n with
    | nil => cases h
    | cons c n =>
      unfold matchToks at h
      split at h
      · have := ih h; simp [this]
      · cases h

/-! ## The loop behind a star -/

theorem place_false {ks : List Tok} {last : Bool} {n t : Str} :
    place false ks last n = some t ↔ matchToks ks n = some t ∧ (last = true → t = []) := by
  unfold place
  cases hm : matchToks ks n with
  | none => simp
  | some u =>
    dsimp only
    split
    · rename_i h
      constructor
      · intro h'; cases h'; refine ⟨rfl, fun hl => ?_⟩
        rcases h with h | h
        · exact h
        · rw [hl] at h; cases h
      · rintro ⟨h', -⟩; exact h'
    · rename_i h
      simp at h
      constructor
      · intro h'; simp at h'
      · rintro ⟨h', h2⟩; cases h'; exact absurd (h2 h.2) h.1

/-- The first place where the chunk fits is found. -/
theorem place_true {ks : List Tok} {last : Bool} (n : Str) (hn : '/' ∉ n) :
    (∀ t, place true ks last n = some t → ∃ a b, n = a ++ b ∧ matchToks ks b = some t ∧ (last = true → t = []) ∧
      ∀ a' b' t', n = a' ++ b' → matchToks ks b' = some t' → (last = true → t' = []) → ∃ x, t = x ++ t') ∧
    (place true ks last n = none → ∀ a b t, n = a ++ b → matchToks ks b = some t → ¬ (last = true → t = [])) := by
  induction n with
  | nil =>
    unfold place
    cases hm : matchToks ks [] with
    | none =>
      simp [skipTo]
      intro a b t h1 h2 h3
      subst h2
      rw [hm] at h3; cases h3
    | some u =>
      have hu := matchToks_drop hm
      simp at hu
      obtain ⟨rfl, rfl⟩ := hu
      simp
      exact ⟨[], [], ⟨rfl, rfl⟩, rfl, by rintro a' b' t' rfl rfl h3 -; cases h3; rfl⟩
  | cons c s ih =>
    simp at hn
    obtain ⟨ih1, ih2⟩ := ih hn.2
    have hskip : skipTo ks last (c :: s) = place true ks last s := by
      unfold skipTo place
      rw [if_neg (Ne.symm hn.1)]
      cases matchToks ks s with
      | none => rfl
      | some t =>
        cases last <;> by_cases ht : t = [] <;> simp [ht]
    by_cases hg : ∃ t, matchToks ks (c :: s) = some t ∧ (last = true → t = [])
    · obtain ⟨t, hm, hl⟩ := hg
      have hp : place true ks last (c :: s) = some t := by
        unfold place
        rw [hm]
        dsimp only
        rw [if_pos]
        cases last
        · exact .inr rfl
        · exact .inl (hl rfl)
      rw [hp]
      refine ⟨?_, by simp⟩
      intro t0 ht0
      cases ht0
      refine ⟨[], c :: s, rfl, hm, hl, ?_⟩
      intro a' b' t' h1 h2 h3
      obtain ⟨d1, l1⟩ := matchToks_drop hm
      obtain ⟨d2, l2⟩ := matchToks_drop h2
      rw [d1, d2, h1]
      have : (a' ++ b').drop ks.length = (a' ++ b').drop ks.length := rfl
      refine ⟨((a' ++ b').drop ks.length).take a'.length, ?_⟩
      have h4 : b'.drop ks.length = ((a' ++ b').drop ks.length).drop a'.length := by
        rw [List.drop_drop, Nat.add_comm, ← List.drop_drop]
        simp
      rw [h4, List.take_append_drop]
    · have hp : place true ks last (c :: s) = place true ks last s := by
        rw [← hskip]
        unfold place
        cases hm : matchToks ks (c :: s) with
        | none => simp
        | some t =>
          dsimp only
          rw [if_neg, if_pos rfl]
          intro h
          apply hg
          refine ⟨t, hm, fun hl => ?_⟩
          rcases h with h | h
          · exact h
          · rw [hl] at h; cases h
      rw [hp]
      constructor
      · intro t ht
        obtain ⟨a, b, rfl, hm, hl, hleft⟩ := ih1 t ht
        refine ⟨c :: a, b, rfl, hm, hl, ?_⟩
        intro a' b' t' h1 h2 h3
        cases a' with
        | nil =>
          exfalso
          simp at h1
          subst h1
          exact hg ⟨t', h2, h3⟩
        | cons d a' =>
          simp at h1
          exact hleft a' b' t' h1.2 h2 h3
      · intro h a b t h1 h2 h3
        cases a with
        | nil =>
          simp at h1
          subst h1
          exact hg ⟨t, h2, h3⟩
        | cons d a =>
          simp at h1
          exact ih2 h a b t h1.2 h2 h3

/-! ## The whole -/

theorem decomp (p : Str) : ∃ k, ((stars p).1 = true ↔ 0 < k) ∧ ∀ l, Parses p l ↔ ∃ ks js,
    toks (scan false (stars p).2).1 = some ks ∧ Parses (scan false (stars p).2).2 js ∧
    l = List.replicate k .star ++ (ks.map .tok ++ js) := by
  obtain ⟨k, h1, h2, -⟩ := stars_split p
  refine ⟨k, h2, fun l => ?_⟩
  generalize hq : (stars p).2 = q at h1
  rw [h1, parses_stars]
  constructor
  · rintro ⟨l', rfl, h⟩
    obtain ⟨ks, js, h3, h4, rfl⟩ := parses_scan h
    exact ⟨ks, js, h3, h4, rfl⟩
  · rintro ⟨ks, js, h3, h4, rfl⟩
    exact ⟨_, rfl, scan_parses _ q ks js (Nat.le_refl _) h3 h4⟩

theorem chunk_nil {p : Str} (h : (scan false (stars p).2).1 = []) : (stars p).2 = [] := by
  obtain ⟨k, -, -, h3⟩ := stars_split p
  have ha := scan_append false (stars p).2
  rw [h] at ha
  rcases scan_rest false (stars p).2 with hr | ⟨t, hr⟩
  · rw [hr] at ha; exact ha.symm
  · rw [← ha, List.nil_append, hr] at h3; exact absurd rfl h3

theorem rest_lt {p : Str} (h : p ≠ []) : (scan false (stars p).2).2.length < p.length := by
  obtain ⟨k, h1, -, -⟩ := stars_split p
  have ha := congrArg List.length (scan_append false (stars p).2)
  have hl := congrArg List.length h1
  simp at ha hl
  rcases Nat.eq_zero_or_pos (scan false (stars p).2).1.length with hz | hz
  · have := chunk_nil (List.eq_nil_of_length_eq_zero hz)
    rw [this]
    exact List.length_pos_iff.mpr h
  · omega

theorem wellFormed_iff (m : Nat) : ∀ p : Str, p.length ≤ m → (wellFormed p = true ↔ ∃ l, Parses p l) := by
  induction m with
  | zero =>
    intro p hp
    obtain rfl := List.eq_nil_of_length_eq_zero (Nat.le_zero.mp hp)
    rw [wellFormed]
    simp only [if_true, true_iff]
    exact ⟨_, .nil⟩
  | succ m ih =>
    intro p hp
    by_cases hne : p = []
    · subst hne; exact ih [] (by simp)
    obtain ⟨k, -, hd⟩ := decomp p
    have hlt := rest_lt hne
    rw [wellFormed, if_neg hne]
    dsimp only
    cases ht : toks (scan false (stars p).2).1 with
    | none =>
      simp
      intro l hl
      obtain ⟨ks, js, h1, -⟩ := (hd l).mp hl
      rw [ht] at h1; cases h1
    | some ks =>
      simp only [Option.isNone_some, Bool.false_eq_true, if_false, dif_pos hlt]
      rw [ih _ (by omega)]
      constructor
      · rintro ⟨js, hj⟩; exact ⟨_, (hd _).mpr ⟨ks, js, ht, hj, rfl⟩⟩
      · rintro ⟨l, hl⟩
        obtain ⟨_, js, -, hj, -⟩ := (hd l).mp hl
        exact ⟨js, hj⟩

/-- Behind a star nothing is lost by matching early. -/
theorem absorb {q : Str} {js : List Item} (hq : q = [] ∨ ∃ t, q = '*' :: t) (hp : Parses q js) {x t : Str}
    (hx : '/' ∉ x) (h : IMatches js t) (hl : q = [] → x = []) : IMatches js (x ++ t) := by
  rcases hq with rfl | ⟨u, rfl⟩
  · rw [hl rfl]; exact h
  · obtain ⟨js, rfl, -⟩ := parses_star hp
    obtain ⟨a, b, rfl, ha, hb⟩ := h
    exact ⟨x ++ a, b, by simp, by simp [hx, ha], hb⟩

theorem parses_nil {l : List Item} (h : Parses [] l) : l = [] := by
  cases h; rfl

theorem goMatch_parses (m : Nat) : ∀ (p n : Str) (b : Bool), p.length ≤ m → goMatch p n = some b →
    ∃ l, Parses p l := by
  induction m with
  | zero =>
    intro p n b hp h
    obtain rfl := List.eq_nil_of_length_eq_zero (Nat.le_zero.mp hp)
    exact ⟨_, .nil⟩
  | succ m ih =>
    intro p n b hp h
    by_cases hne : p = []
    · subst hne; exact ⟨_, .nil⟩
    obtain ⟨k, -, hd⟩ := decomp p
    have hlt := rest_lt hne
    rw [goMatch, if_neg hne] at h
    dsimp only at h
    split at h
    · rename_i hc
      refine ⟨_, (hd _).mpr ⟨[], [], by rw [hc.2, toks], ?_, rfl⟩⟩
      rw [chunk_nil hc.2]
      exact .nil
    · split at h
      · cases h
      · rename_i ks ht
        split at h
        · obtain ⟨js, hj⟩ := ih _ _ b (by omega) h
          exact ⟨_, (hd _).mpr ⟨ks, js, ht, hj, rfl⟩⟩
        · split at h
          · rename_i hw
            obtain ⟨js, hj⟩ := (wellFormed_iff _ _ (Nat.le_refl _)).mp hw
            exact ⟨_, (hd _).mpr ⟨ks, js, ht, hj, rfl⟩⟩
          · cases h

theorem goMatch_correct (m : Nat) : ∀ (p n : Str) (l : List Item), p.length ≤ m → Parses p l →
    ∃ b, goMatch p n = some b ∧ ('/' ∉ n → (b = true ↔ IMatches l n)) := by
  induction m with
  | zero =>
    intro p n l hp h
    obtain rfl := List.eq_nil_of_length_eq_zero (Nat.le_zero.mp hp)
    rw [parses_nil h, goMatch]
    exact ⟨_, rfl, by simp [IMatches]⟩
  | succ m ih =>
    intro p n l hp h
    by_cases hne : p = []
    · subst hne; exact ih [] n l (by simp) h
    obtain ⟨k, hk, hd⟩ := decomp p
    have hlt := rest_lt hne
    obtain ⟨ks, js, ht, hj, rfl⟩ := (hd l).mp h
    rw [goMatch, if_neg hne]
    dsimp only
    split
    · rename_i hc
      refine ⟨_, rfl, fun hn => ?_⟩
      have hq := chunk_nil hc.2
      rw [hq] at ht hj
      have : ks = [] := by
        have h0 : (scan false ([] : Str)).1 = [] := rfl
        rw [h0, toks] at ht
        cases ht; rfl
      subst this
      rw [parses_nil hj]
      obtain ⟨k, rfl⟩ : ∃ j, k = j + 1 := ⟨k - 1, by have := hk.mp hc.1; omega⟩
      rw [imatches_stars]
      simp only [hn, not_false_eq_true, decide_true, true_iff]
      exact ⟨n, [], by simp, hn, rfl⟩
    · rw [ht]
      dsimp only
      have hrest := scan_rest false (stars p).2
      generalize hr : (scan false (stars p).2).2 = rest at *
      have hnil : rest = [] → js = [] := by rintro rfl; exact parses_nil hj
      -- matching of the rest agrees for a suitable remainder
      cases hpl : place (stars p).1 ks (decide (rest = [])) n with
      | none =>
        dsimp only
        rw [if_pos ((wellFormed_iff _ _ (Nat.le_refl _)).mpr ⟨js, hj⟩)]
        refine ⟨_, rfl, fun hn => ?_⟩
        simp only [Bool.false_eq_true, false_iff]
        intro hm
        have key : ∃ a b t, n = a ++ b ∧ (k = 0 → a = []) ∧ matchToks ks b = some t ∧ IMatches js t := by
          cases k with
          | zero =>
            obtain ⟨t, h1, h2⟩ := (imatches_toks ks js n).mp hm
            exact ⟨[], n, t, rfl, fun _ => rfl, h1, h2⟩
          | succ k =>
            obtain ⟨a, b, rfl, -, hb⟩ := (imatches_stars k _ n).mp hm
            obtain ⟨t, h1, h2⟩ := (imatches_toks ks js b).mp hb
            exact ⟨a, b, t, rfl, by simp, h1, h2⟩
        obtain ⟨a, b, t, hab, hk0, h1, h2⟩ := key
        have hlast : decide (rest = []) = true → t = [] := by
          intro hr'
          rw [hnil (by simpa using hr')] at h2
          exact h2
        cases hst : (stars p).1 with
        | false =>
          rw [hst] at hpl hk
          have : k = 0 := by
            rcases Nat.eq_zero_or_pos k with h | h
            · exact h
            · exact absurd (hk.mpr h) (by simp)
          rw [hk0 this] at hab
          simp at hab
          subst hab
          rw [place_false.mpr ⟨h1, hlast⟩] at hpl
          cases hpl
        | true =>
          rw [hst] at hpl
          exact (place_true n hn).2 hpl a b t hab h1 hlast
      | some t =>
        dsimp only
        obtain ⟨b, hb, hb'⟩ := ih rest t js (by omega) hj
        refine ⟨b, hb, fun hn => ?_⟩
        cases hst : (stars p).1 with
        | false =>
          rw [hst] at hpl hk
          have hk0 : k = 0 := by
            rcases Nat.eq_zero_or_pos k with h | h
            · exact h
            · exact absurd (hk.mpr h) (by simp)
          subst hk0
          obtain ⟨h1, h2⟩ := place_false.mp hpl
          have htn : '/' ∉ t := by
            rw [(matchToks_drop h1).1]
            exact fun hm => hn (List.mem_of_mem_drop hm)
          rw [hb' htn]
          show IMatches js t ↔ IMatches (ks.map .tok ++ js) n
          rw [imatches_toks]
          constructor
          · intro h; exact ⟨t, h1, h⟩
          · rintro ⟨t', h3, h4⟩
            rw [h1] at h3; cases h3; exact h4
        | true =>
          rw [hst] at hpl hk
          obtain ⟨k, rfl⟩ : ∃ j, k = j + 1 := ⟨k - 1, by have := hk.mp rfl; omega⟩
          obtain ⟨a, b0, hab, h1, h2, hleft⟩ := (place_true n hn).1 t hpl
          have htb : ∀ x ∈ t, x ∈ n := by
            intro x hx
            rw [(matchToks_drop h1).1] at hx
            rw [hab]
            exact List.mem_append_right _ (List.mem_of_mem_drop hx)
          have htn : '/' ∉ t := fun hm => hn (htb _ hm)
          rw [hb' htn, imatches_stars]
          constructor
          · intro h
            exact ⟨a, b0, hab, fun hm => hn (by rw [hab]; exact List.mem_append_left _ hm),
              (imatches_toks _ _ _).mpr ⟨t, h1, h⟩⟩
          · rintro ⟨a', b', hab', -, hm⟩
            obtain ⟨t', h3, h4⟩ := (imatches_toks _ _ _).mp hm
            have hlast : decide (rest = []) = true → t' = [] := by
              intro hr'
              rw [hnil (by simpa using hr')] at h4
              exact h4
            obtain ⟨x, hx⟩ := hleft a' b' t' hab' h3 hlast
            rw [hx]
            refine absorb hrest hj (fun hm => htn (by rw [hx]; exact List.mem_append_left _ hm)) h4 ?_
            intro hr'
            have ht0 := h2 (by simp [hr'])
            rw [hx] at ht0
            exact (List.append_eq_nil_iff.mp ht0).1

/-- C114. For names without slash, `path.Match` is exactly the declarative meaning of patterns. -/
theorem match_exact (p n : Str) (hn : '/' ∉ n) : goMatch p n = some true ↔ Spec.Matches p n := by
  constructor
  · intro h
    obtain ⟨l, hl⟩ := goMatch_parses _ p n true (Nat.le_refl _) h
    obtain ⟨b, hb, hb'⟩ := goMatch_correct _ p n l (Nat.le_refl _) hl
    rw [h] at hb
    cases hb
    exact parses_matches hl n ((hb' hn).mp rfl)
  · intro h
    obtain ⟨l, hl, hi⟩ := matches_parses h
    obtain ⟨b, hb, hb'⟩ := goMatch_correct _ p n l (Nat.le_refl _) hl
    rw [hb, (hb' hn).mpr hi]

/-- C114. It is an error exactly if the pattern is malformed, whatever the name. -/
theorem match_error (p n : Str) : goMatch p n = none ↔ ¬ Spec.WF p := by
  rw [wf_iff]
  constructor
  · rintro h ⟨l, hl⟩
    obtain ⟨b, hb, -⟩ := goMatch_correct _ p n l (Nat.le_refl _) hl
    rw [h] at hb; cases hb
  · intro h
    cases hg : goMatch p n with
    | none => rfl
    | some b => exact absurd (goMatch_parses _ p n b (Nat.le_refl _) hg) h

theorem nameMatches_iff (v n : Str) (hn : '/' ∉ n) : nameMatches v n = true ↔ v = n ∨ Spec.Matches v n := by
  unfold nameMatches
  rw [decide_eq_true_eq, match_exact v n hn]

theorem entry_iff (e : Entry) (n : Str) (hn : '/' ∉ n) :
    (e.serverNames.any fun v => nameMatches v n) = true ↔ Spec.For e n := by
  simp [List.any_eq_true, Spec.For, nameMatches_iff _ _ hn]

theorem config_first (es : List Entry) (n : Str) (hn : '/' ∉ n) :
    (∀ r, getCertFromConfig es n = some r ↔ ∃ pre e post, es = pre ++ e :: post ∧ (∀ x ∈ pre, ¬ Spec.For x n) ∧
      Spec.For e n ∧ r = e.pair.elim .error .configured) ∧
    (getCertFromConfig es n = none ↔ ∀ e ∈ es, ¬ Spec.For e n) := by
  induction es with
  | nil => simp [getCertFromConfig]
  | cons e es ih =>
    unfold getCertFromConfig
    by_cases he : Spec.For e n
    · rw [if_pos ((entry_iff e n hn).mpr he)]
      constructor
      · intro r
        constructor
        · intro h
          refine ⟨[], e, es, rfl, by simp, he, ?_⟩
          cases hp : e.pair <;> rw [hp] at h <;> cases h <;> rfl
        · rintro ⟨pre, e', post, h1, h2, h3, rfl⟩
          cases pre with
          | nil => cases h1; cases e.pair <;> rfl
          | cons a pre => cases h1; exact absurd he (h2 _ (by simp))
      · cases e.pair <;> simp [he]
    · rw [if_neg (by rw [entry_iff e n hn]; exact he)]
      constructor
      · intro r
        rw [ih.1 r]
        constructor
        · rintro ⟨pre, e', post, rfl, h2, h3⟩
          exact ⟨e :: pre, e', post, rfl, by simpa [he] using h2, h3⟩
        · rintro ⟨pre, e', post, h1, h2, h3⟩
          cases pre with
          | nil => cases h1; exact absurd h3.1 he
          | cons a pre =>
            cases h1
            exact ⟨pre, e', post, rfl, fun x hx => h2 x (by simp [hx]), h3⟩
      · rw [ih.2]; simp [he]

/-- C114. The certificate for a client is the one of the first entry of `tlsCertificates` that is for the name
the client asks for (for the default name, if it asks for none). If its files cannot be loaded the handshake
fails: no other certificate is used in its place. -/
theorem certificate_configured (es : List Entry) (dflt sni n : Str) (tos autocert : Bool)
    (hname : (sni ≠ [] ∧ n = sni) ∨ (sni = [] ∧ n = dflt)) (hn : '/' ∉ n)
    (pre post : List Entry) (e : Entry) (hes : es = pre ++ e :: post) (hpre : ∀ x ∈ pre, ¬ Spec.For x n)
    (he : Spec.For e n) :
    (∀ c, e.pair = some c → getCertificate es dflt tos autocert sni = .configured c) ∧
    (e.pair = none → getCertificate es dflt tos autocert sni = .error) := by
  have hx : (if sni = [] then dflt else sni) = n := by
    rcases hname with ⟨h, rfl⟩ | ⟨h, rfl⟩
    · rw [if_neg h]
    · rw [if_pos h]
  have hg := ((config_first es n hn).1 _).mpr ⟨pre, e, post, hes, hpre, he, rfl⟩
  unfold getCertificate
  dsimp only
  rw [hx, hg]
  constructor
  · intro c hc; rw [hc]; rfl
  · intro hc; rw [hc]; rfl

/-- C114. The certificate manager is asked, and for this very name, exactly if no entry is for the name, and
the terms of service are accepted if there are any. -/
theorem certificate_managed (es : List Entry) (dflt sni n m : Str) (tos autocert : Bool)
    (hname : (sni ≠ [] ∧ n = sni) ∨ (sni = [] ∧ n = dflt)) (hn : '/' ∉ n) :
    getCertificate es dflt tos autocert sni = .managed m ↔
      m = n ∧ (∀ e ∈ es, ¬ Spec.For e n) ∧ (autocert = true → tos = true) := by
  have hx : (if sni = [] then dflt else sni) = n := by
    rcases hname with ⟨h, rfl⟩ | ⟨h, rfl⟩
    · rw [if_neg h]
    · rw [if_pos h]
  unfold getCertificate
  dsimp only
  rw [hx]
  cases hg : getCertFromConfig es n with
  | none =>
    have hnone := (config_first es n hn).2.mp hg
    cases tos <;> cases autocert <;> simp [eq_comm] <;> exact fun _ => hnone
  | some r =>
    obtain ⟨pre, e, post, rfl, -, he, rfl⟩ := ((config_first es n hn).1 r).mp hg
    dsimp only
    constructor
    · intro h; cases hp : e.pair <;> rw [hp] at h <;> cases h
    · rintro ⟨-, h, -⟩; exact absurd he (h e (by simp))

/-! ## Examples -/

/-- Non-vacuity: the second entry is for the name, the first is not; a broken second entry is an error. -/
example : Spec.For ⟨["*.example.com".toList], some 7⟩ "www.example.com".toList ∧
    ¬ Spec.For ⟨["example.[a-b]om".toList], some 3⟩ "www.example.com".toList ∧
    getCertificate [⟨["example.[a-b]om".toList], some 3⟩, ⟨["*.example.com".toList], some 7⟩] [] true true
      "www.example.com".toList = .configured 7 ∧
    getCertificate [⟨["example.[^a-b]om".toList], none⟩] [] true true "example.com".toList = .error ∧
    getCertificate [⟨["example.[a".toList], some 3⟩] "example.com".toList true true [] = .managed "example.com".toList ∧
    ¬ Spec.WF "example.[a".toList := by
  refine ⟨(entry_iff _ _ (by decide)).mp (by decide +kernel), fun h => absurd ((entry_iff _ _ (by decide)).mpr h) (by decide +kernel),
    by decide +kernel, by decide +kernel, by decide +kernel, (match_error _ []).mp (by decide +kernel)⟩

/-- Unlike in certificates, a star is not limited to one label: the certificate for `*.example.com` is also
presented, though not valid, for names with more labels, in place of one from the certificate manager. -/
example : Spec.For ⟨["*.example.com".toList], some 7⟩ "a.b.example.com".toList :=
  (entry_iff _ _ (by decide)).mp (by decide +kernel)

end Verif.Certs
