import Verif.Model.SamlDoc
import Verif.Props.Saml
import Verif.Props.TokenContents
/-
C118: what a SAML login says about the user is what the signed assertion says.
-/
namespace Verif.SamlDoc

/-! ## Specification -/

/-- `e'` is reached from `e` by going down along the path, at the children numbered `pos`. -/
inductive Spec.At : Node → List Str → List Nat → Node → Prop
  | here {e} : Spec.At e [] [] e
  | down {e i c sp t as ks ts is e'} : e.kids[i]? = some c → c = .elem sp t as ks → Spec.At c ts is e' →
      Spec.At e (t :: ts) (i :: is) e'

/-- The first such element in the document. -/
def Spec.First (e : Node) (path : List Str) (r : Node) : Prop :=
  ∃ pos, Spec.At e path pos r ∧ ∀ pos' r', Spec.At e path pos' r' → pos' = pos ∨ pos < pos'

/-- The text of an element: all character data, without comments, up to the first child that is something
else. -/
def Spec.Text (e : Node) (s : Str) : Prop :=
  ∃ pre rest, e.kids = pre ++ rest ∧ (∀ n ∈ pre, (∃ x, n = .text x) ∨ ∃ x, n = .comment x) ∧
    (∀ n r, rest = n :: r → (∀ x, n ≠ .text x) ∧ ∀ x, n ≠ .comment x) ∧
    s = pre.flatMap fun n => match n with | .text x => x | _ => []

/-- The first attribute of that name. -/
def Spec.HasAttr (e : Node) (k v : Str) : Prop :=
  ∃ pre a post, e.attrs = pre ++ a :: post ∧ a.key = k ∧ a.value = v ∧ ∀ b ∈ pre, b.key ≠ k

/-- The text at a path, empty if there is no such element. -/
def Spec.TextAt (e : Node) (path : List Str) (s : Str) : Prop :=
  (∃ r, Spec.First e path r ∧ Spec.Text r s) ∨ ((∀ pos r, ¬ Spec.At e path pos r) ∧ s = [])

/-- The attribute at a path, empty if there is none. -/
def Spec.AttrAt (e : Node) (path : List Str) (k s : Str) : Prop :=
  (∃ r, Spec.First e path r ∧ (Spec.HasAttr r k s ∨ ((∀ x, ¬ Spec.HasAttr r k x) ∧ s = []))) ∨
    ((∀ pos r, ¬ Spec.At e path pos r) ∧ s = [])

/-- An attribute statement about `k` at position `pos`. -/
def Spec.States (v : Node) (pos : List Nat) (k s : Str) : Prop :=
  ∃ a, Spec.At v ["AttributeStatement".toList, "Attribute".toList] pos a ∧ Spec.HasAttr a "Name".toList k ∧
    Spec.TextAt a ["AttributeValue".toList] s

/-- What an assertion says about `k`: the last statement counts; "source" is the issuer unless there is a
statement about it. -/
def Spec.Claim (v : Node) (k s : Str) : Prop :=
  (∃ pos, Spec.States v pos k s ∧ ∀ pos' s', Spec.States v pos' k s' → pos' = pos ∨ pos' < pos) ∨
  ((∀ pos s', ¬ Spec.States v pos k s') ∧ k = "source".toList ∧ Spec.TextAt v ["Issuer".toList] s)

/-! ## Documents -/

/-- The elements at a path with their positions, in order. -/
def locs : Node → List Str → List (List Nat × Node)
  | e, [] => [([], e)]
  | e, t :: ts => e.kids.zipIdx.flatMap fun c =>
      if c.1.isTag t then (locs c.1 ts).map fun p => (c.2 :: p.1, p.2) else []

theorem isTag_iff {t : Str} {c : Node} : c.isTag t = true ↔ ∃ sp as ks, c = .elem sp t as ks := by
  cases c with
  | elem sp t' as ks =>
    unfold Node.isTag
    rw [beq_iff_eq]
    constructor
    · rintro rfl; exact ⟨sp, as, ks, rfl⟩
    · rintro ⟨_, _, _, h⟩; cases h; rfl
  | text s => exact ⟨(fun h => by cases h), (fun ⟨_, _, _, h⟩ => by cases h)⟩
  | comment s => exact ⟨(fun h => by cases h), (fun ⟨_, _, _, h⟩ => by cases h)⟩
  | other s => exact ⟨(fun h => by cases h), (fun ⟨_, _, _, h⟩ => by cases h)⟩

theorem foldl_flatMap (path : List Str) (es : List Node) :
    path.foldl (fun es t => es.flatMap (byTag t)) es = es.flatMap fun e => findAll e path := by
  induction path generalizing es with
  | nil => simp [findAll]
  | cons t ts ih =>
    rw [List.foldl_cons, ih, List.flatMap_assoc]
    congr 1
    funext e
    rw [findAll, List.foldl_cons, ih]
    simp

theorem findAll_cons (e : Node) (t : Str) (ts : List Str) :
    findAll e (t :: ts) = (byTag t e).flatMap fun c => findAll c ts := by
  rw [findAll, List.foldl_cons, foldl_flatMap]
  simp

theorem locs_snd (path : List Str) (e : Node) : (locs e path).map (·.2) = findAll e path := by
  induction path generalizing e with
  | nil => rfl
  | cons t ts ih =>
    rw [findAll_cons]
    unfold locs byTag
    have key : ∀ (l : List Node) (k : Nat),
        ((l.zipIdx k).flatMap fun c => if c.1.isTag t then (locs c.1 ts).map fun p => (c.2 :: p.1, p.2) else []).map (·.2)
          = (l.filter (·.isTag t)).flatMap fun c => findAll c ts := by
      intro l
      induction l with
      | nil => intro k; rfl
      | cons c l ihl =>
        intro k
        rw [List.zipIdx_cons, List.flatMap_cons, List.map_append, ihl, List.filter_cons]
        by_cases hc : c.isTag t
        · rw [if_pos hc, if_pos hc, List.flatMap_cons, ← ih]
          simp [Function.comp_def]
        · rw [if_neg hc, if_neg hc]; rfl
    exact key _ _

theorem mem_locs {path : List Str} {e : Node} {pos : List Nat} {r : Node} :
    (pos, r) ∈ locs e path ↔ Spec.At e path pos r := by
  induction path generalizing e pos r with
  | nil =>
    constructor
    · intro h
      simp only [locs, List.mem_singleton, Prod.mk.injEq] at h
      obtain ⟨rfl, rfl⟩ := h
      exact .here
    · intro h; cases h; simp [locs]
  | cons t ts ih =>
    simp only [locs, List.mem_flatMap]
    constructor
    · rintro ⟨⟨c, i⟩, hc, h⟩
      dsimp only at h
      split at h
      · rename_i ht
        obtain ⟨⟨p, n⟩, hp, he⟩ := List.mem_map.mp h
        dsimp only at he
        cases he
        obtain ⟨sp, as, ks, hce⟩ := isTag_iff.mp ht
        have := List.mem_zipIdx_iff_getElem?.mp hc
        exact .down this hce (ih.mp hp)
      · cases h
    · intro h
      cases h with
      | @down _ i c sp _ as ks _ is _ h1 h2 h3 =>
        refine ⟨(c, i), List.mem_zipIdx_iff_getElem?.mpr h1, ?_⟩
        dsimp only
        rw [if_pos (isTag_iff.mpr ⟨sp, as, ks, h2⟩)]
        exact List.mem_map.mpr ⟨(is, r), ih.mpr h3, rfl⟩

theorem locs_sorted (path : List Str) (e : Node) : (locs e path).Pairwise fun a b => a.1 < b.1 := by
  induction path generalizing e with
  | nil => simp [locs]
  | cons t ts ih =>
    unfold locs
    rw [List.pairwise_flatMap]
    refine ⟨?_, ?_⟩
    · rintro ⟨c, i⟩ _
      dsimp only
      split
      · rw [List.pairwise_map]
        exact (ih c).imp fun h => List.cons_lt_cons_self.mpr h
      · exact .nil
    · have hz : e.kids.zipIdx.Pairwise fun a b => a.2 < b.2 := by
        generalize e.kids = l
        have : ∀ k, (l.zipIdx k).Pairwise fun a b => a.2 < b.2 := by
          induction l with
          | nil => intro k; exact .nil
          | cons c l ih =>
            intro k
            rw [List.zipIdx_cons, List.pairwise_cons]
            refine ⟨?_, ih _⟩
            rintro ⟨c', i⟩ h
            have := List.le_snd_of_mem_zipIdx h
            dsimp only at this ⊢
            omega
        exact this 0
      refine hz.imp ?_
      rintro ⟨c, i⟩ ⟨c', j⟩ hij x hx y hy
      dsimp only at hij hx hy
      split at hx
      · split at hy
        · obtain ⟨p, -, rfl⟩ := List.mem_map.mp hx
          obtain ⟨q, -, rfl⟩ := List.mem_map.mp hy
          exact List.Lex.rel hij
        · cases hy
      · cases hx

theorem find_none {e : Node} {path : List Str} : find e path = none ↔ ∀ pos r, ¬ Spec.At e path pos r := by
  unfold find
  rw [List.head?_eq_none_iff, ← locs_snd, List.map_eq_nil_iff]
  constructor
  · intro h pos r hat
    have := mem_locs.mpr hat
    rw [h] at this
    cases this
  · intro h
    cases hl : locs e path with
    | nil => rfl
    | cons x l => exact absurd (mem_locs.mp (by rw [hl]; exact List.mem_cons_self)) (h x.1 x.2)

theorem find_some {e : Node} {path : List Str} {r : Node} : find e path = some r ↔ Spec.First e path r := by
  have key : ∀ x l, locs e path = x :: l → Spec.At e path x.1 x.2 ∧
      ∀ pos' r', Spec.At e path pos' r' → (pos' = x.1 ∧ r' = x.2) ∨ x.1 < pos' := by
    intro x l hl
    refine ⟨mem_locs.mp (by rw [hl]; exact List.mem_cons_self), ?_⟩
    intro pos' r' h
    have hm := mem_locs.mpr h
    rw [hl] at hm
    have hs := locs_sorted path e
    rw [hl, List.pairwise_cons] at hs
    rcases List.mem_cons.mp hm with rfl | hm
    · exact .inl ⟨rfl, rfl⟩
    · exact .inr (hs.1 _ hm)
  unfold find
  rw [← locs_snd, List.head?_map]
  cases hl : locs e path with
  | nil =>
    simp only [List.head?_nil, Option.map_none]
    constructor
    · intro h; cases h
    · rintro ⟨pos, h, -⟩
      have := mem_locs.mpr h
      rw [hl] at this; cases this
  | cons x l =>
    obtain ⟨h1, h2⟩ := key x l hl
    simp only [List.head?_cons, Option.map_some, Option.some.injEq]
    constructor
    · rintro rfl
      refine ⟨x.1, h1, ?_⟩
      intro pos' r' h
      rcases h2 pos' r' h with h | h
      · exact .inl h.1
      · exact .inr h
    · rintro ⟨pos, h, hmin⟩
      rcases h2 pos r h with h' | h'
      · exact h'.2.symm
      · rcases hmin _ _ h1 with h'' | h''
        · rw [h''] at h'; exact absurd h' (List.lt_irrefl _)
        · exact absurd (List.lt_trans h' h'') (List.lt_irrefl _)

theorem leading_spec (l : List Node) : ∃ pre rest, l = pre ++ rest ∧
    (∀ n ∈ pre, (∃ x, n = .text x) ∨ ∃ x, n = .comment x) ∧
    (∀ n r, rest = n :: r → (∀ x, n ≠ .text x) ∧ ∀ x, n ≠ .comment x) ∧
    leading l = pre.flatMap fun n => match n with | .text x => x | _ => [] := by
  induction l with
  | nil => exact ⟨[], [], rfl, by simp, by simp, rfl⟩
  | cons n l ih =>
    obtain ⟨pre, rest, h1, h2, h3, h4⟩ := ih
    cases n with
    | text x =>
      refine ⟨.text x :: pre, rest, by rw [h1]; rfl, ?_, h3, ?_⟩
      · intro n hn
        rcases List.mem_cons.mp hn with rfl | hn
        · exact .inl ⟨x, rfl⟩
        · exact h2 n hn
      · rw [List.flatMap_cons, ← h4]; rfl
    | comment x =>
      refine ⟨.comment x :: pre, rest, by rw [h1]; rfl, ?_, h3, ?_⟩
      · intro n hn
        rcases List.mem_cons.mp hn with rfl | hn
        · exact .inr ⟨x, rfl⟩
        · exact h2 n hn
      · rw [List.flatMap_cons, ← h4]; rfl
    | elem sp t as ks =>
      exact ⟨[], .elem sp t as ks :: l, rfl, by simp, by rintro n r he; cases he; simp, rfl⟩
    | other x =>
      exact ⟨[], .other x :: l, rfl, by simp, by rintro n r he; cases he; simp, rfl⟩

theorem text_unique {pre rest pre' rest' : List Node} (h : pre ++ rest = pre' ++ rest')
    (h2 : ∀ n ∈ pre, (∃ x, n = Node.text x) ∨ ∃ x, n = .comment x)
    (h3 : ∀ n r, rest = n :: r → (∀ x, n ≠ Node.text x) ∧ ∀ x, n ≠ .comment x)
    (h2' : ∀ n ∈ pre', (∃ x, n = Node.text x) ∨ ∃ x, n = .comment x)
    (h3' : ∀ n r, rest' = n :: r → (∀ x, n ≠ Node.text x) ∧ ∀ x, n ≠ .comment x) : pre = pre' := by
  induction pre generalizing pre' with
  | nil =>
    cases pre' with
    | nil => rfl
    | cons n p =>
      simp only [List.nil_append, List.cons_append] at h
      have := h3 n _ h
      rcases h2' n List.mem_cons_self with ⟨x, hx⟩ | ⟨x, hx⟩
      · exact absurd hx (this.1 x)
      · exact absurd hx (this.2 x)
  | cons n p ih =>
    cases pre' with
    | nil =>
      simp only [List.nil_append, List.cons_append] at h
      have := h3' n _ h.symm
      rcases h2 n List.mem_cons_self with ⟨x, hx⟩ | ⟨x, hx⟩
      · exact absurd hx (this.1 x)
      · exact absurd hx (this.2 x)
    | cons n' p' =>
      simp only [List.cons_append, List.cons.injEq] at h
      obtain ⟨rfl, h⟩ := h
      rw [ih h (fun m hm => h2 m (List.mem_cons_of_mem _ hm)) (fun m hm => h2' m (List.mem_cons_of_mem _ hm))]

theorem text_iff {e : Node} {s : Str} : e.text' = s ↔ Spec.Text e s := by
  obtain ⟨pre, rest, h1, h2, h3, h4⟩ := leading_spec e.kids
  constructor
  · rintro rfl
    exact ⟨pre, rest, h1, h2, h3, h4⟩
  · rintro ⟨pre', rest', h1', h2', h3', rfl⟩
    have := text_unique (h1.symm.trans h1') h2 h3 h2' h3'
    unfold Node.text'
    rw [h4, this]

theorem selectAttr_some {e : Node} {k v : Str} : selectAttr e k = some v ↔ Spec.HasAttr e k v := by
  unfold selectAttr Spec.HasAttr
  rw [Option.map_eq_some_iff]
  constructor
  · rintro ⟨a, h, rfl⟩
    obtain ⟨hk, pre, post, he, hp⟩ := List.find?_eq_some_iff_append.mp h
    exact ⟨pre, a, post, he, by simpa using hk, rfl, fun b hb => by simpa using hp b hb⟩
  · rintro ⟨pre, a, post, he, hk, rfl, hp⟩
    exact ⟨a, List.find?_eq_some_iff_append.mpr ⟨by simpa using hk, pre, post, he, fun b hb => by simpa using hp b hb⟩, rfl⟩

theorem selectAttr_none {e : Node} {k : Str} : selectAttr e k = none ↔ ∀ v, ¬ Spec.HasAttr e k v := by
  constructor
  · intro h v hv
    rw [selectAttr_some.mpr hv] at h; cases h
  · intro h
    cases hs : selectAttr e k with
    | none => rfl
    | some v => exact absurd (selectAttr_some.mp hs) (h v)

theorem findText_iff {e : Node} {p : List Str} {s : Str} : findText e p = s ↔ Spec.TextAt e p s := by
  unfold findText Spec.TextAt
  cases h : find e p with
  | none =>
    dsimp only
    have hn := find_none.mp h
    constructor
    · rintro rfl; exact .inr ⟨hn, rfl⟩
    · rintro (⟨r, ⟨pos, hat, -⟩, -⟩ | ⟨-, rfl⟩)
      · exact absurd hat (hn pos r)
      · rfl
  | some r =>
    dsimp only
    have hf := find_some.mp h
    constructor
    · intro hs; exact .inl ⟨r, hf, text_iff.mp hs⟩
    · rintro (⟨r', hf', ht⟩ | ⟨hn, -⟩)
      · have := find_some.mpr hf'
        rw [h] at this; cases this
        exact text_iff.mpr ht
      · obtain ⟨pos, hat, -⟩ := hf
        exact absurd hat (hn pos r)

theorem findAttr_iff {e : Node} {p : List Str} {k s : Str} : findAttr e p k = s ↔ Spec.AttrAt e p k s := by
  unfold findAttr Spec.AttrAt
  cases h : find e p with
  | none =>
    dsimp only
    have hn := find_none.mp h
    constructor
    · rintro rfl; exact .inr ⟨hn, rfl⟩
    · rintro (⟨r, ⟨pos, hat, -⟩, -⟩ | ⟨-, rfl⟩)
      · exact absurd hat (hn pos r)
      · rfl
  | some r =>
    dsimp only
    have hf := find_some.mp h
    have huniq : ∀ r', Spec.First e p r' → r' = r := by
      intro r' hf'
      have := find_some.mpr hf'
      rw [h] at this; cases this; rfl
    cases ha : selectAttr r k with
    | none =>
      dsimp only
      have hn := selectAttr_none.mp ha
      constructor
      · rintro rfl; exact .inl ⟨r, hf, .inr ⟨hn, rfl⟩⟩
      · rintro (⟨r', hf', hh | ⟨-, rfl⟩⟩ | ⟨-, rfl⟩)
        · rw [huniq r' hf'] at hh; exact absurd hh (hn s)
        · rfl
        · rfl
    | some x =>
      dsimp only
      have hx := selectAttr_some.mp ha
      constructor
      · rintro rfl; exact .inl ⟨r, hf, .inl hx⟩
      · rintro (⟨r', hf', hh | ⟨hn, -⟩⟩ | ⟨hn, -⟩)
        · rw [huniq r' hf'] at hh
          have := selectAttr_some.mpr hh
          rw [ha] at this; cases this; rfl
        · rw [huniq r' hf'] at hn; exact absurd hx (hn x)
        · obtain ⟨pos, hat, -⟩ := hf
          exact absurd hat (hn pos r)

/-! ## Claims -/

theorem lookup_set (c : Claims) (k v k' : Str) :
    (c.set k v).lookup k' = if k' = k then some v else c.lookup k' := by
  unfold Claims.set
  rw [List.lookup_cons]
  by_cases h : k' = k
  · subst h; simp
  · rw [if_neg h, beq_false_of_ne h]
    dsimp only
    induction c with
    | nil => rfl
    | cons p c ih =>
      rw [List.filter_cons, List.lookup_cons]
      by_cases hp : p.1 = k
      · rw [if_neg (by simp [hp]), ih, hp, beq_false_of_ne h]
      · rw [if_pos (by simp [hp]), List.lookup_cons, ih]

/-- The attribute statements that name `k`. -/
def names (k : Str) (a : Node) : Bool := selectAttr a "Name".toList == some k

theorem names_iff {k : Str} {a : Node} : names k a = true ↔ selectAttr a "Name".toList = some k := by
  unfold names; exact beq_iff_eq

theorem fold_lookup (l : List Node) (c : Claims) (k : Str) :
    (l.foldl addAttribute c).lookup k =
      match (l.filter (names k)).getLast? with
      | some a => some (findText a ["AttributeValue".toList])
      | none => c.lookup k := by
  induction l generalizing c with
  | nil => rfl
  | cons a l ih =>
    rw [List.foldl_cons, ih, List.filter_cons]
    cases hs : selectAttr a "Name".toList with
    | none =>
      have hn : ¬ names k a = true := by rw [names_iff, hs]; exact fun h => by cases h
      have ha : addAttribute c a = c := by simp only [addAttribute, hs]
      rw [if_neg hn, ha]
    | some k' =>
      have ha : addAttribute c a = c.set k' (findText a ["AttributeValue".toList]) := by simp only [addAttribute, hs]
      rw [ha, lookup_set]
      by_cases hk : k = k'
      · subst hk
        have hn : names k a = true := names_iff.mpr hs
        rw [if_pos hn]
        cases hl : l.filter (names k) with
        | nil => simp
        | cons b bs => simp [List.getLast?_cons]
      · have hn : ¬ names k a = true := by rw [names_iff, hs]; exact fun h => hk (by cases h; rfl)
        rw [if_neg hn, if_neg hk]

theorem getLast?_filter_snd {l : List (List Nat × Node)} (hs : l.Pairwise fun a b => a.1 < b.1)
    (f : Node → Bool) (r : Node) (h : ((l.map (·.2)).filter f).getLast? = some r) :
    ∃ pos, (pos, r) ∈ l ∧ f r = true ∧ ∀ x ∈ l, f x.2 = true → x.1 = pos ∨ x.1 < pos := by
  induction l with
  | nil => cases h
  | cons x l ih =>
    rw [List.pairwise_cons] at hs
    rw [List.map_cons, List.filter_cons] at h
    cases hl : ((l.map (·.2)).filter f).getLast? with
    | some r' =>
      have hr : r' = r := by
        split at h
        · rw [List.getLast?_cons, hl] at h; simpa using h
        · rw [hl] at h; simpa using h
      subst hr
      obtain ⟨pos, h1, h2, h3⟩ := ih hs.2 hl
      refine ⟨pos, List.mem_cons_of_mem _ h1, h2, ?_⟩
      intro y hy hf
      rcases List.mem_cons.mp hy with rfl | hy
      · exact .inr (hs.1 _ h1)
      · exact h3 y hy hf
    | none =>
      have hnil := List.getLast?_eq_none_iff.mp hl
      rw [hnil] at h
      split at h
      · rename_i hx
        simp at h
        subst h
        refine ⟨x.1, List.mem_cons_self, hx, ?_⟩
        intro y hy hf
        rcases List.mem_cons.mp hy with rfl | hy
        · exact .inl rfl
        · have hm : y.2 ∈ (l.map (·.2)).filter f := List.mem_filter.mpr ⟨List.mem_map.mpr ⟨y, hy, rfl⟩, hf⟩
          rw [hnil] at hm; cases hm
      · cases h

/-- The claims are exactly what the assertion says. -/
theorem claims_iff (v : Node) (k s : Str) : (extraClaims v).lookup k = some s ↔ Spec.Claim v k s := by
  have hstates : ∀ pos a, Spec.At v ["AttributeStatement".toList, "Attribute".toList] pos a → names k a = true →
      Spec.States v pos k (findText a ["AttributeValue".toList]) := by
    intro pos a hat hn
    exact ⟨a, hat, selectAttr_some.mp (names_iff.mp hn), findText_iff.mp rfl⟩
  have hat_unique : ∀ {path : List Str} {pos : List Nat} {a b : Node}, Spec.At v path pos a →
      Spec.At v path pos b → a = b := by
    intro path
    generalize v = e
    induction path generalizing e with
    | nil => intro pos a b h h'; cases h; cases h'; rfl
    | cons t ts ih =>
      intro pos a b h h'
      cases h with
      | down h1 h2 h3 =>
        cases h' with
        | down h1' h2' h3' =>
          rw [h1] at h1'; cases h1'
          exact ih _ h3 h3'
  unfold extraClaims
  rw [fold_lookup]
  have hsort := locs_sorted ["AttributeStatement".toList, "Attribute".toList] v
  rw [← locs_snd]
  cases hl : (((locs v ["AttributeStatement".toList, "Attribute".toList]).map (·.2)).filter (names k)).getLast? with
  | some a =>
    obtain ⟨pos, h1, h2, h3⟩ := getLast?_filter_snd hsort _ _ hl
    have hat := mem_locs.mp h1
    have hmax : ∀ pos' s', Spec.States v pos' k s' → pos' = pos ∨ pos' < pos := by
      rintro pos' s' ⟨b, hb, hn, -⟩
      exact h3 (pos', b) (mem_locs.mpr hb) (names_iff.mpr (selectAttr_some.mpr hn))
    dsimp only
    rw [Option.some.injEq]
    constructor
    · rintro rfl
      exact .inl ⟨pos, hstates pos a hat h2, hmax⟩
    · rintro (⟨pos', ⟨b, hb, hbn, hbt⟩, hmax'⟩ | ⟨hno, -⟩)
      · have hp : pos' = pos := by
          rcases hmax pos' s ⟨b, hb, hbn, hbt⟩ with h | h
          · exact h
          · rcases hmax' pos _ (hstates pos a hat h2) with h' | h'
            · exact h'.symm
            · exact absurd (List.lt_trans h h') (List.lt_irrefl _)
        subst hp
        rw [hat_unique hat hb]
        exact findText_iff.mpr hbt
      · exact absurd (hstates pos a hat h2) (hno _ _)
  | none =>
    have hnil := List.getLast?_eq_none_iff.mp hl
    have hno : ∀ pos s', ¬ Spec.States v pos k s' := by
      rintro pos s' ⟨b, hb, hn, -⟩
      have hm : b ∈ ((locs v ["AttributeStatement".toList, "Attribute".toList]).map (·.2)).filter (names k) :=
        List.mem_filter.mpr ⟨List.mem_map.mpr ⟨(pos, b), mem_locs.mpr hb, rfl⟩,
          names_iff.mpr (selectAttr_some.mpr hn)⟩
      rw [hnil] at hm; cases hm
    dsimp only
    rw [List.lookup_cons]
    by_cases hk : k = "source".toList
    · subst hk
      simp only [beq_self_eq_true, Option.some.injEq]
      rw [findText_iff]
      constructor
      · exact fun h => .inr ⟨hno, rfl, h⟩
      · rintro (⟨pos, h, -⟩ | ⟨-, -, h⟩)
        · exact absurd h (hno _ _)
        · exact h
    · rw [beq_false_of_ne hk]
      simp only [List.lookup_nil]
      constructor
      · intro h; cases h
      · rintro (⟨pos, h, -⟩ | ⟨-, h, -⟩)
        · exact absurd h (hno _ _)
        · exact absurd h hk

/-! ## Logins -/

/-- What a login needs: `a` is the first assertion of the document, `v` what the signature vouches for, and
everything else is what `v` says. -/
structure Spec.Good (cfg : Saml.Config) (time : Str → Option Nat) (pending : Str → Option Saml.Pending) (now : Nat)
    (v : Node) (sub sid : Str) (p : Saml.Pending) : Prop where
  hSid : Spec.AttrAt v ["Subject".toList, "SubjectConfirmation".toList, "SubjectConfirmationData".toList]
    "InResponseTo".toList sid
  hPending : pending sid = some p
  hRecipient : Spec.AttrAt v ["Subject".toList, "SubjectConfirmation".toList, "SubjectConfirmationData".toList]
    "Recipient".toList cfg.acsURL
  hAudience : Spec.TextAt v ["Conditions".toList, "AudienceRestriction".toList, "Audience".toList]
    ("https://".toList ++ cfg.host ++ "/".toList)
  hNotBefore : ∃ s t, Spec.AttrAt v ["Conditions".toList] "NotBefore".toList s ∧ time s = some t ∧ t ≤ now
  hNotOnOrAfter : ∃ s t, Spec.AttrAt v ["Conditions".toList] "NotOnOrAfter".toList s ∧ time s = some t ∧ now ≤ t
  hSub : Spec.TextAt v ["Subject".toList, "NameID".toList] sub
  hNonempty : sub ≠ []

theorem loginFrom_iff (cfg : Saml.Config) (time : Str → Option Nat) (pending : Str → Option Saml.Pending) (now : Nat)
    (v : Node) (l : Login) : loginFrom cfg time pending now v = some l ↔
      (∃ p, Spec.Good cfg time pending now v l.sub l.sid p ∧ l.host = p.host ∧ l.url = p.url) ∧
        l.claims = extraClaims v := by
  unfold loginFrom
  dsimp only
  have hid := findAttr_iff (e := v) (p := confirmation) (k := "InResponseTo".toList) (s := findAttr v confirmation "InResponseTo".toList)
  cases hp : pending (findAttr v confirmation "InResponseTo".toList) with
  | none =>
    dsimp only
    constructor
    · intro h; cases h
    · rintro ⟨⟨p, hg, -⟩, -⟩
      have := findAttr_iff.mpr hg.hSid
      have h2 := hg.hPending
      rw [← this] at h2
      rw [show findAttr v ["Subject".toList, "SubjectConfirmation".toList, "SubjectConfirmationData".toList]
        "InResponseTo".toList = findAttr v confirmation "InResponseTo".toList from rfl, hp] at h2
      cases h2
  | some p =>
    dsimp only
    have hacc := Saml.accept_spec cfg (assertion (fun _ => none) time v) now
    constructor
    · intro h
      split at h
      · rename_i hok
        cases h
        refine ⟨⟨p, ?_, rfl, rfl⟩, rfl⟩
        unfold Saml.accept at hok
        split at hok
        · cases hok
        · rename_i hr
          split at hok
          · cases hok
          · rename_i ha
            split at hok
            · cases hok
            · rename_i t1 ht1
              split at hok
              · cases hok
              · rename_i hn1
                split at hok
                · cases hok
                · rename_i t2 ht2
                  split at hok
                  · cases hok
                  · rename_i hn2
                    exact {
                      hSid := findAttr_iff.mp rfl
                      hPending := hp
                      hRecipient := findAttr_iff.mp (Classical.not_not.mp hr)
                      hAudience := findText_iff.mp (Classical.not_not.mp ha)
                      hNotBefore := ⟨_, t1, findAttr_iff.mp rfl, ht1, Nat.le_of_not_lt hn1⟩
                      hNotOnOrAfter := ⟨_, t2, findAttr_iff.mp rfl, ht2, Nat.le_of_not_lt hn2⟩
                      hSub := findText_iff.mp rfl
                      hNonempty := by
                        intro h
                        have : (assertion (fun _ => none) time v).nameID = [] := h
                        rw [this] at hok
                        cases hok }
      · cases h
    · rintro ⟨⟨p', hg, hh, hu⟩, hc⟩
      have hsid := findAttr_iff.mpr hg.hSid
      have hpp : p' = p := by
        have h2 := hg.hPending
        rw [← hsid] at h2
        rw [show findAttr v ["Subject".toList, "SubjectConfirmation".toList, "SubjectConfirmationData".toList]
          "InResponseTo".toList = findAttr v confirmation "InResponseTo".toList from rfl, hp] at h2
        cases h2; rfl
      subst hpp
      have hok : Saml.accept cfg (assertion (fun _ => none) time v) now = true := by
        obtain ⟨s1, t1, ha1, ht1, hn1⟩ := hg.hNotBefore
        obtain ⟨s2, t2, ha2, ht2, hn2⟩ := hg.hNotOnOrAfter
        have e1 : (assertion (fun _ => none) time v).notBefore = some t1 := by
          rw [← findAttr_iff.mpr ha1] at ht1; exact ht1
        have e2 : (assertion (fun _ => none) time v).notOnOrAfter = some t2 := by
          rw [← findAttr_iff.mpr ha2] at ht2; exact ht2
        have e3 : (assertion (fun _ => none) time v).recipient = cfg.acsURL := findAttr_iff.mpr hg.hRecipient
        have e4 : (assertion (fun _ => none) time v).audience = cfg.self := findText_iff.mpr hg.hAudience
        have e5 : (assertion (fun _ => none) time v).nameID = l.sub := findText_iff.mpr hg.hSub
        unfold Saml.accept
        rw [if_neg (by simp [e3]), if_neg (by simp [e4]), e1]
        dsimp only
        rw [if_neg (by omega), e2]
        dsimp only
        rw [if_neg (by omega), e5]
        simp [hg.hNonempty]
      rw [if_pos hok]
      have hsub := findText_iff.mpr hg.hSub
      cases l
      simp only at hsub hsid hh hu hc
      subst hsub hsid hh hu hc
      rfl

/-- C118, the callback. A document leads to a login exactly if the signature check vouches for its first
assertion, and what is vouched for (not the document) answers a pending request, is addressed to us, is
within its time and names a user. The user, the session and the claims of the login are then those that the
vouched-for assertion states, the address and page those of the request. -/
theorem handle_iff (cfg : Saml.Config) (time : Str → Option Nat) (pending : Str → Option Saml.Pending) (now : Nat)
    (dsig : Node → Option Node) (root : Node) (sub sid host url : Str) :
    (∃ l, handle cfg time pending now dsig root = some l ∧ l.sub = sub ∧ l.sid = sid ∧ l.host = host ∧ l.url = url) ↔
      ∃ a v p, Spec.First root ["Assertion".toList] a ∧ dsig a = some v ∧
        Spec.Good cfg time pending now v sub sid p ∧ host = p.host ∧ url = p.url := by
  unfold handle signedPart
  constructor
  · rintro ⟨l, h, rfl, rfl, rfl, rfl⟩
    cases hf : find root ["Assertion".toList] with
    | none => rw [hf] at h; cases h
    | some a =>
      rw [hf] at h; dsimp only at h
      cases hd : dsig a with
      | none => rw [hd] at h; cases h
      | some v =>
        rw [hd] at h; dsimp only at h
        obtain ⟨⟨p, hg, hh, hu⟩, -⟩ := (loginFrom_iff cfg time pending now v l).mp h
        exact ⟨a, v, p, find_some.mp hf, hd, hg, hh, hu⟩
  · rintro ⟨a, v, p, hf, hd, hg, rfl, rfl⟩
    rw [find_some.mpr hf]
    dsimp only
    rw [hd]
    dsimp only
    exact ⟨⟨sub, sid, p.host, p.url, extraClaims v⟩,
      (loginFrom_iff cfg time pending now v _).mpr ⟨⟨p, hg, rfl, rfl⟩, rfl⟩, rfl, rfl, rfl, rfl⟩

theorem ofList_inj {a b : Str} (h : String.ofList a = String.ofList b) : a = b := by
  have := congrArg String.toList h
  simpa using this

theorem get_extra (l : Login) (k : Str) :
    Token.get l.extra (String.ofList k) = (l.claims.lookup k).map .str := by
  unfold Token.get Login.extra
  generalize l.claims = c
  induction c with
  | nil => rfl
  | cons p c ih =>
    rw [List.map_cons, List.lookup_cons, List.lookup_cons]
    by_cases h : k = p.1
    · subst h; simp
    · rw [beq_false_of_ne h, beq_false_of_ne (fun h' => h (ofList_inj h'))]
      exact ih

/-- C118, the token. In the login cookie, user and email are what the assertion names, and apart from the
claims that the proxy sets itself every claim is one that the assertion states, with the value it states. -/
theorem token_iff (cfg : Saml.Config) (time : Str → Option Nat) (pending : Str → Option Saml.Pending) (now : Nat)
    (dsig : Node → Option Node) (root : Node) (l : Login) (h : handle cfg time pending now dsig root = some l)
    (hash : Str → Str) (cm : Token.Cm) (now' : Nat) :
    ∃ a v c, Spec.First root ["Assertion".toList] a ∧ dsig a = some v ∧ l.token hash cm now' = some c ∧
      Spec.TextAt v ["Subject".toList, "NameID".toList] l.sub ∧
      Token.get c "sub" = some (.str l.sub) ∧ Token.get c "email" = some (.str l.sub) ∧
      Token.get c "sid" = some (.str l.sid) ∧ Token.get c "hhash" = some (.str (hash l.host)) ∧
      ∀ k x, String.ofList k ∉ Token.Spec.loginNames →
        (Token.get c (String.ofList k) = some x ↔ ∃ s, x = .str s ∧ Spec.Claim v k s) := by
  unfold handle signedPart at h
  cases hf : find root ["Assertion".toList] with
  | none => rw [hf] at h; cases h
  | some a =>
    rw [hf] at h; dsimp only at h
    cases hd : dsig a with
    | none => rw [hd] at h; cases h
    | some v =>
      rw [hd] at h; dsimp only at h
      obtain ⟨⟨p, hg, hh, hu⟩, hc⟩ := (loginFrom_iff cfg time pending now v l).mp h
      have htok : ∃ c, l.token hash cm now' = some c := by
        unfold Login.token Token.authToken
        rw [if_neg (by simp [hg.hNonempty])]
        exact ⟨_, rfl⟩
      obtain ⟨c, htok⟩ := htok
      have hex := Token.login_token_exact hash cm now' l.sub l.sub l.sid l.host l.extra c htok
      refine ⟨a, v, c, find_some.mp hf, hd, htok, hg.hSub, ?_, ?_, ?_, ?_, ?_⟩
      · exact (hex _ _).mpr (.inl (by simp [Token.Spec.LoginBase]))
      · exact (hex _ _).mpr (.inl (by simp [Token.Spec.LoginBase]))
      · exact (hex _ _).mpr (.inl (by simp [Token.Spec.LoginBase]))
      · exact (hex _ _).mpr (.inl (by simp [Token.Spec.LoginBase]))
      · intro k x hk
        have hnb : ¬ Token.Spec.LoginBase hash cm now' l.sub l.sub l.sid l.host (String.ofList k) x := by
          intro hb
          refine hk ?_
          simp only [Token.Spec.LoginBase, List.mem_cons, Prod.mk.injEq, List.not_mem_nil, or_false] at hb
          rcases hb with ⟨h, _⟩ | ⟨h, _⟩ | ⟨h, _⟩ | ⟨h, _⟩ | ⟨h, _⟩ | ⟨h, _⟩ | ⟨h, _⟩ | ⟨h, _⟩ | ⟨h, _⟩ | ⟨h, _⟩ <;>
            rw [h] <;> simp [Token.Spec.loginNames]
        rw [hex, get_extra, hc, Option.map_eq_some_iff]
        constructor
        · rintro (h | ⟨-, s, h1, h2⟩)
          · exact absurd h hnb
          · exact ⟨s, h2.symm, (claims_iff v k s).mp h1⟩
        · rintro ⟨s, rfl, hs⟩
          exact .inr ⟨hk, s, (claims_iff v k s).mpr hs, rfl⟩

/-- C118, in part: the claim "source" is the issuer of the assertion, provided that no attribute has that
name. -/
theorem source_partial (v : Node) (h : ∀ pos s, ¬ Spec.States v pos "source".toList s) (s : Str) :
    (extraClaims v).lookup "source".toList = some s ↔ Spec.TextAt v ["Issuer".toList] s := by
  rw [claims_iff]
  constructor
  · rintro (⟨pos, hs, -⟩ | ⟨-, -, hs⟩)
    · exact absurd hs (h _ _)
    · exact hs
  · exact fun hs => .inr ⟨h, rfl, hs⟩

/-! ## Comments -/

/-- Character data in front of other content; there is no boundary between two adjacent pieces. -/
def pushText (s : Str) : List Node → List Node
  | .text s' :: r => .text (s ++ s') :: r
  | r => .text s :: r

mutual
/-- A document without its comments: what is signed (canonicalisation removes them, and two pieces of text
around a comment become one). -/
def Node.strip : Node → Node
  | .elem sp t as ks => .elem sp t as (stripList ks)
  | .text s => .text s
  | .comment s => .comment s
  | .other s => .other s

def stripList : List Node → List Node
  | [] => []
  | .comment _ :: r => stripList r
  | .text s :: r => pushText s (stripList r)
  | .elem sp t as ks :: r => .elem sp t as (stripList ks) :: stripList r
  | .other s :: r => .other s :: stripList r
end

theorem strip_attrs (e : Node) : e.strip.attrs = e.attrs := by
  cases e <;> simp [Node.strip, Node.attrs]

theorem strip_isTag (t : Str) (e : Node) : e.strip.isTag t = e.isTag t := by
  cases e <;> simp [Node.strip, Node.isTag]

theorem strip_kids (e : Node) : e.strip.kids = stripList e.kids := by
  cases e <;> simp [Node.strip, Node.kids, stripList]

theorem pushText_filter (t s : Str) (l : List Node) : (pushText s l).filter (·.isTag t) = l.filter (·.isTag t) := by
  unfold pushText
  split <;> simp [List.filter_cons, Node.isTag]

theorem pushText_leading (s : Str) (l : List Node) : leading (pushText s l) = s ++ leading l := by
  unfold pushText
  split <;> simp [leading]

theorem strip_byTag (t : Str) (e : Node) : byTag t e.strip = (byTag t e).map Node.strip := by
  unfold byTag
  rw [strip_kids]
  generalize e.kids = l
  induction l with
  | nil => simp [stripList]
  | cons n l ih =>
    cases n with
    | comment s => rw [stripList, ih, List.filter_cons]; simp [Node.isTag]
    | text s => rw [stripList, pushText_filter, ih, List.filter_cons]; simp [Node.isTag]
    | other s => rw [stripList, List.filter_cons, List.filter_cons, ih]; simp [Node.isTag]
    | elem sp t' as ks =>
      rw [stripList, List.filter_cons, List.filter_cons, ih]
      by_cases h : t' = t
      · rw [if_pos (by simp [Node.isTag, h]), if_pos (by simp [Node.isTag, h]), List.map_cons, Node.strip]
      · rw [if_neg (by simp [Node.isTag, h]), if_neg (by simp [Node.isTag, h])]

theorem strip_findAll (path : List Str) (e : Node) : findAll e.strip path = (findAll e path).map Node.strip := by
  induction path generalizing e with
  | nil => rfl
  | cons t ts ih =>
    rw [findAll_cons, findAll_cons, strip_byTag, List.flatMap_map, List.map_flatMap]
    congr 1
    funext c
    exact ih c

theorem strip_leading (l : List Node) : leading (stripList l) = leading l := by
  induction l with
  | nil => simp [stripList]
  | cons n l ih =>
    cases n with
    | comment s => rw [stripList, ih]; rfl
    | text s => rw [stripList, pushText_leading, ih]; rfl
    | elem sp t as ks => simp [stripList, leading]
    | other s => simp [stripList, leading]

theorem strip_findText (e : Node) (p : List Str) : findText e.strip p = findText e p := by
  unfold findText find
  rw [strip_findAll, List.head?_map]
  cases (findAll e p).head? with
  | none => rfl
  | some v =>
    simp only [Option.map_some, Node.text']
    rw [strip_kids, strip_leading]

theorem strip_selectAttr (e : Node) (k : Str) : selectAttr e.strip k = selectAttr e k := by
  unfold selectAttr; rw [strip_attrs]

theorem strip_findAttr (e : Node) (p : List Str) (k : Str) : findAttr e.strip p k = findAttr e p k := by
  unfold findAttr find
  rw [strip_findAll, List.head?_map]
  cases (findAll e p).head? with
  | none => rfl
  | some v => simp only [Option.map_some, strip_selectAttr]

theorem strip_claims (v : Node) : extraClaims v.strip = extraClaims v := by
  unfold extraClaims
  rw [strip_findAll, List.foldl_map, strip_findText]
  congr 1
  funext c a
  unfold addAttribute
  rw [strip_selectAttr, strip_findText]

/-- C118, comments. Comments are not covered by the signature. Two elements that differ only in comments, also
inside of texts, lead to the same login, or both to none: nobody can cut off part of a name by inserting one. -/
theorem comments_ignored (cfg : Saml.Config) (time : Str → Option Nat) (pending : Str → Option Saml.Pending)
    (now : Nat) (v v' : Node) (h : v.strip = v'.strip) :
    loginFrom cfg time pending now v = loginFrom cfg time pending now v' := by
  have key : ∀ v : Node, loginFrom cfg time pending now v.strip = loginFrom cfg time pending now v := by
    intro v
    unfold loginFrom assertion
    simp only [strip_findAttr, strip_findText, strip_claims]
  rw [← key v, ← key v', h]

/-! ## The state machine -/

/-- The signature check of `Verif.Model.Saml` for documents. -/
def validateDoc (num time : Str → Option Nat) (dsig : Node → Option Node) (docs : Nat → Node) (doc : Nat) :
    Option Saml.Assertion :=
  (signedPart dsig (docs doc)).map (assertion num time)

/-- Every login of the state machine of C60, run on documents, is about the user that the first assertion of
the document names, as far as the signature check vouches for it, and answers the request that this
assertion says it answers. -/
theorem login_user (cfg : Saml.Config) (num time : Str → Option Nat) (dsig : Node → Option Node)
    (docs : Nat → Node) (os : List Saml.Op) (id b : Nat) (sub host url : Str) (doc t : Nat)
    (h : Saml.Event.login id b sub host url doc t ∈
      (Saml.run cfg (validateDoc num time dsig docs) os Saml.init).log) :
    ∃ a v, Spec.First (docs doc) ["Assertion".toList] a ∧ dsig a = some v ∧
      Spec.TextAt v ["Subject".toList, "NameID".toList] sub ∧
      ∃ rid, num rid = some id ∧
        Spec.AttrAt v ["Subject".toList, "SubjectConfirmation".toList, "SubjectConfirmationData".toList]
          "InResponseTo".toList rid := by
  have key : ∀ (os : List Saml.Op) (s : Saml.State),
      (∀ e ∈ s.log, ∀ id b sub host url doc t, e = Saml.Event.login id b sub host url doc t →
        ∃ a, validateDoc num time dsig docs doc = some a ∧ a.nameID = sub ∧ a.inResponseTo = some id) →
      ∀ e ∈ (Saml.run cfg (validateDoc num time dsig docs) os s).log, ∀ id b sub host url doc t,
        e = Saml.Event.login id b sub host url doc t →
        ∃ a, validateDoc num time dsig docs doc = some a ∧ a.nameID = sub ∧ a.inResponseTo = some id := by
    intro os
    induction os with
    | nil => intro s hs; exact hs
    | cons o os ih =>
      intro s hs
      refine ih _ ?_
      cases o with
      | request b id t url host =>
        intro e he id' b' sub' host' url' doc' t' heq
        simp only [Saml.step, List.mem_cons] at he
        rcases he with he | he
        · rw [he] at heq; cases heq
        · exact hs e he id' b' sub' host' url' doc' t' heq
      | callback b doc post t now =>
        intro e he id' b' sub' host' url' doc' t' heq
        simp only [Saml.step] at he
        split at he
        · exact hs e he id' b' sub' host' url' doc' t' heq
        · split at he
          · exact hs e he id' b' sub' host' url' doc' t' heq
          · rename_i a hv
            split at he
            · exact hs e he id' b' sub' host' url' doc' t' heq
            · rename_i rid hi
              split at he
              · exact hs e he id' b' sub' host' url' doc' t' heq
              · split at he
                · simp only [List.mem_cons] at he
                  rcases he with he | he
                  · rw [he] at heq
                    cases heq
                    exact ⟨a, hv, rfl, hi⟩
                  · exact hs e he id' b' sub' host' url' doc' t' heq
                · exact hs e he id' b' sub' host' url' doc' t' heq
  obtain ⟨a, hv, hn, hi⟩ := key os Saml.init (by intro e he; cases he) _ h _ _ _ _ _ _ _ rfl
  unfold validateDoc signedPart at hv
  cases hf : find (docs doc) ["Assertion".toList] with
  | none => rw [hf] at hv; cases hv
  | some e =>
    rw [hf] at hv; dsimp only at hv
    cases hd : dsig e with
    | none => rw [hd] at hv; cases hv
    | some v =>
      rw [hd] at hv
      cases hv
      exact ⟨e, v, find_some.mp hf, hd, findText_iff.mp hn, _, hi, findAttr_iff.mp rfl⟩

/-! ## Examples -/

namespace Ex

def el (t : String) (as : List (String × String)) (ks : List Node) : Node :=
  .elem "saml".toList t.toList (as.map fun a => ⟨[], a.1.toList, a.2.toList⟩) ks

def tx (s : String) : Node := .text s.toList

/-- An assertion about bob with the attribute `k`. -/
def about (name : List Node) (k x : String) : Node :=
  el "Assertion" [("ID", "a")]
    [el "Issuer" [] [tx "idp"],
     el "Subject" [] [el "NameID" [] name,
       el "SubjectConfirmation" [] [el "SubjectConfirmationData" [("InResponseTo", "r1"), ("Recipient", "https://h/acs")] []]],
     el "Conditions" [("NotBefore", "b"), ("NotOnOrAfter", "e")]
       [el "AudienceRestriction" [] [el "Audience" [] [tx "https://h/"]]],
     el "AttributeStatement" [] [el "Attribute" [("Name", k)] [el "AttributeValue" [] [tx x]]]]

def good : Node := about [tx "bob@example.com"] "dept" "it"

/-- The same with a comment in the name. -/
def commented : Node := about [tx "bob@example", .comment "x".toList, tx ".com"] "dept" "it"

/-- The issuer claims to be another. -/
def lying : Node := about [tx "bob@example.com"] "source" "other"

def cfg : Saml.Config := ⟨"https://h/acs".toList, "h".toList⟩

def time (s : Str) : Option Nat := if s = "b".toList then some 10 else if s = "e".toList then some 20 else none

def pending (s : Str) : Option Saml.Pending := if s = "r1".toList then some ⟨5, "/page".toList, "h".toList⟩ else none

/-- A response with an unsigned status and two assertions. -/
def response : Node := el "Response" [] [el "Status" [] [], good, el "Assertion" [] []]

end Ex

/-- The hypotheses of `handle_iff` and `token_iff` are met (`dsig := some` vouches for everything). -/
example : handle Ex.cfg Ex.time Ex.pending 15 some Ex.response =
    some ⟨"bob@example.com".toList, "r1".toList, "h".toList, "/page".toList,
      [("dept".toList, "it".toList), ("source".toList, "idp".toList)]⟩ := by decide +kernel

/-- The hypothesis of `comments_ignored` is met by two different elements. -/
example : Ex.commented.strip = Ex.good.strip ∧ Ex.commented ≠ Ex.good := by
  refine ⟨by simp [Ex.commented, Ex.good, Ex.about, Ex.el, Ex.tx, Node.strip, stripList, pushText], ?_⟩
  intro h
  simp [Ex.commented, Ex.good, Ex.about, Ex.el, Ex.tx] at h

example : loginFrom Ex.cfg Ex.time Ex.pending 15 Ex.commented =
    some ⟨"bob@example.com".toList, "r1".toList, "h".toList, "/page".toList,
      [("dept".toList, "it".toList), ("source".toList, "idp".toList)]⟩ := by decide +kernel

/-- C118 is violated by attributes named "source": a login that says it comes from another issuer than the
assertion does. -/
theorem source_violated : ∃ (cfg : Saml.Config) (time : Str → Option Nat) (pending : Str → Option Saml.Pending)
    (now : Nat) (v : Node) (l : Login) (c : Token.Claims) (hash : Str → Str) (cm : Token.Cm),
    loginFrom cfg time pending now v = some l ∧ l.token hash cm now = some c ∧
    Spec.TextAt v ["Issuer".toList] "idp".toList ∧ Token.get c "source" = some (.str "other".toList) := by
  have hl : ∃ l, loginFrom Ex.cfg Ex.time Ex.pending 15 Ex.lying = some l ∧
      ∃ c, l.token id ⟨[], []⟩ 15 = some c ∧ Token.get c "source" = some (.str "other".toList) := by
    refine ⟨⟨"bob@example.com".toList, "r1".toList, "h".toList, "/page".toList,
      [("source".toList, "other".toList)]⟩, by decide +kernel, _, rfl, by decide +kernel⟩
  obtain ⟨l, h1, c, h2, h3⟩ := hl
  exact ⟨Ex.cfg, Ex.time, Ex.pending, 15, Ex.lying, l, c, id, ⟨[], []⟩, h1, h2, findText_iff.mp (by decide +kernel), h3⟩

end Verif.SamlDoc
