import Verif.Model.Console

/-!
# C50: the console shows no client secrets
-/

namespace Verif.Console

/-- All pointers point to something. -/
def Spec.Valid (h : Heap) (c : Cfg) : Prop :=
  (∀ r ∈ c.providers, r < h.length) ∧
  ∀ b ∈ c.backends, ∀ rs, b.sso = some (some rs) → ∀ r ∈ rs, r < h.length

/-- Replace each secret by a fixed text. -/
def Spec.hide (v : View) : View :=
  let f (o : Obj) : Obj := ⟨o.pub, "**REDACTED**".toList⟩
  { v with
    providers := v.providers.map f
    backends := v.backends.map fun b => (b.1, b.2.map (·.map (·.map f))) }

theorem deref_append_left {h x : Heap} {r : Nat} (hr : r < h.length) :
    deref (h ++ x) r = deref h r := by
  unfold deref
  rw [List.getD_eq_getElem?_getD, List.getD_eq_getElem?_getD, List.getElem?_append_left hr]

theorem cloneRefs_heap (h : Heap) (rs : List Nat) :
    (cloneRefs h rs).1 = h ++ rs.map (deref h) := rfl

theorem cloneRefs_deref (h x : Heap) (rs : List Nat) :
    (cloneRefs h rs).2.map (deref ((cloneRefs h rs).1 ++ x)) = rs.map (deref h) := by
  unfold cloneRefs
  apply List.ext_getElem
  · simp
  · intro i h1 h2
    have hi : i < rs.length := by simpa using h2
    simp only [List.getElem_map, List.getElem_range', Nat.one_mul]
    unfold deref
    rw [List.getD_eq_getElem?_getD, List.append_assoc, List.getElem?_append_right (by omega),
      List.getElem?_append_left (by simp; omega)]
    simp [hi]

theorem map_deref_congr {h x : Heap} {rs : List Nat} (hv : ∀ r ∈ rs, r < h.length) :
    rs.map (deref (h ++ x)) = rs.map (deref h) :=
  List.map_congr_left fun r hr => deref_append_left (hv r hr)

/-- Everything from `n` on: the pointers of a cloned part. -/
def FreshB (n : Nat) (h : Heap) (b : Backend) : Prop :=
  ∀ rs, b.sso = some (some rs) → ∀ r ∈ rs, n ≤ r ∧ r < h.length

def viewB (h : Heap) (b : Backend) : Str × Option (Option (List Obj)) :=
  (b.pub, b.sso.map (·.map (·.map (deref h))))

theorem cloneBackend_spec (h : Heap) (b : Backend) :
    ∃ x, (cloneBackend h b).1 = h ++ x ∧
      FreshB h.length (cloneBackend h b).1 (cloneBackend h b).2 ∧
      ∀ y, viewB ((cloneBackend h b).1 ++ y) (cloneBackend h b).2 = viewB h b := by
  cases hs : b.sso with
  | none =>
    have he : cloneBackend h b = (h, b) := by unfold cloneBackend; rw [hs]
    refine ⟨[], by simp [he], ?_, ?_⟩
    · rw [he]; intro rs h1; rw [hs] at h1; cases h1
    · intro y; rw [he]; simp [viewB, hs]
  | some o =>
    cases o with
    | none =>
      have he : cloneBackend h b = (h, b) := by unfold cloneBackend; rw [hs]
      refine ⟨[], by simp [he], ?_, ?_⟩
      · rw [he]; intro rs h1; rw [hs] at h1; cases h1
      · intro y; rw [he]; simp [viewB, hs]
    | some rs =>
      have he : cloneBackend h b =
          ((cloneRefs h rs).1, { b with sso := some (some (cloneRefs h rs).2) }) := by
        unfold cloneBackend; rw [hs]
      refine ⟨rs.map (deref h), by rw [he]; rfl, ?_, ?_⟩
      · rw [he]
        intro rs' h1 r hr
        simp only [Option.some.injEq] at h1
        subst h1
        simp only [cloneRefs, List.mem_range'_1, List.length_append, List.length_map] at hr ⊢
        omega
      · intro y
        rw [he]
        simp only [viewB, Option.map_some]
        rw [cloneRefs_deref, hs]
        rfl

theorem viewB_mono {h x : Heap} {b : Backend}
    (hv : ∀ rs, b.sso = some (some rs) → ∀ r ∈ rs, r < h.length) :
    viewB (h ++ x) b = viewB h b := by
  unfold viewB
  cases hs : b.sso with
  | none => rfl
  | some o =>
    cases o with
    | none => rfl
    | some rs => simp only [Option.map_some]; rw [map_deref_congr (hv rs hs)]

theorem cloneBackends_spec (bs : List Backend) : ∀ (h : Heap),
    (∀ b ∈ bs, ∀ rs, b.sso = some (some rs) → ∀ r ∈ rs, r < h.length) →
    ∃ x, (cloneBackends h bs).1 = h ++ x ∧
      (∀ b ∈ (cloneBackends h bs).2, FreshB h.length (cloneBackends h bs).1 b) ∧
      (cloneBackends h bs).2.map (viewB (cloneBackends h bs).1) = bs.map (viewB h) := by
  induction bs with
  | nil => intro h _; exact ⟨[], by simp [cloneBackends], by simp [cloneBackends], rfl⟩
  | cons b bs ih =>
    intro h hv
    obtain ⟨x, h1, h2, h3⟩ := cloneBackend_spec h b
    have hv' : ∀ b' ∈ bs, ∀ rs, b'.sso = some (some rs) → ∀ r ∈ rs,
        r < (cloneBackend h b).1.length := by
      intro b' hb rs hs r hr
      have := hv b' (List.mem_cons_of_mem _ hb) rs hs r hr
      rw [h1, List.length_append]; omega
    obtain ⟨y, k1, k2, k3⟩ := ih (cloneBackend h b).1 hv'
    have e1 : (cloneBackends h (b :: bs)).1 = (cloneBackends (cloneBackend h b).1 bs).1 := rfl
    have e2 : (cloneBackends h (b :: bs)).2 =
      (cloneBackend h b).2 :: (cloneBackends (cloneBackend h b).1 bs).2 := rfl
    have hlen : (cloneBackend h b).1.length = h.length + x.length := by
      rw [h1, List.length_append]
    refine ⟨x ++ y, by rw [e1, k1, h1, List.append_assoc], ?_, ?_⟩
    · intro b' hb
      rw [e1]
      rw [e2] at hb
      rcases List.mem_cons.1 hb with rfl | hb
      · intro rs hs r hr
        obtain ⟨ha, hb'⟩ := h2 rs hs r hr
        rw [k1, List.length_append]
        exact ⟨ha, by omega⟩
      · intro rs hs r hr
        obtain ⟨ha, hb'⟩ := k2 b' hb rs hs r hr
        exact ⟨by omega, hb'⟩
    · rw [e1, e2, List.map_cons, k3, List.map_cons]
      congr 1
      · rw [k1]; exact h3 y
      · apply List.map_congr_left
        intro b' hb
        rw [h1]
        exact viewB_mono (hv b' (List.mem_cons_of_mem _ hb))

/-! Redaction: pointers below `n` are unaffected, pointers that are visited are redacted. -/

theorem redactRef_length (h : Heap) (r : Nat) : (redactRef h r).length = h.length := by
  simp [redactRef]

theorem redactRef_get (h : Heap) (r i : Nat) (hr : r < h.length) :
    deref (redactRef h r) i =
      if i = r then ⟨(deref h i).pub, redacted⟩ else deref h i := by
  unfold redactRef
  by_cases he : i = r
  · subst he
    rw [if_pos rfl]
    simp [deref, List.getElem?_set, hr]
  · rw [if_neg he]
    simp [deref, List.getElem?_set, Ne.symm he]

/-- The effect of a whole redaction run on the heap. -/
structure Eff (S : Nat → Prop) (h h' : Heap) : Prop where
  len : h'.length = h.length
  pub : ∀ i, (deref h' i).pub = (deref h i).pub
  hit : ∀ i, S i → (deref h' i).secret = redacted
  same : ∀ i, (deref h' i).secret = (deref h i).secret ∨ (deref h' i).secret = redacted

theorem eff_refs (rs : List Nat) : ∀ (h : Heap), (∀ r ∈ rs, r < h.length) →
    Eff (· ∈ rs) h (rs.foldl redactRef h) ∧
      ∀ i, i ∉ rs → deref (rs.foldl redactRef h) i = deref h i := by
  induction rs with
  | nil => intro h _; exact ⟨⟨rfl, fun _ => rfl, by simp, fun _ => Or.inl rfl⟩, fun _ _ => rfl⟩
  | cons r rs ih =>
    intro h hv
    have hr := hv r List.mem_cons_self
    obtain ⟨e, k⟩ := ih (redactRef h r) (fun r' hr' => by
      rw [redactRef_length]; exact hv r' (List.mem_cons_of_mem _ hr'))
    have hg := fun i => redactRef_get h r i hr
    rw [List.foldl_cons]
    refine ⟨⟨by rw [e.len, redactRef_length], ?_, ?_, ?_⟩, ?_⟩
    · intro i; rw [e.pub, hg]; split <;> rfl
    · intro i hi
      rcases List.mem_cons.1 hi with rfl | hi
      · rcases e.same i with h1 | h1
        · rw [h1, hg, if_pos rfl]
        · exact h1
      · exact e.hit i hi
    · intro i
      rcases e.same i with h1 | h1
      · rw [h1, hg]
        split
        · exact Or.inr rfl
        · exact Or.inl rfl
      · exact Or.inr h1
    · intro i hi
      rw [List.mem_cons, not_or] at hi
      rw [k i hi.2, hg, if_neg hi.1]

def refsB (b : Backend) : List Nat :=
  match b.sso with
  | some (some rs) => rs
  | _ => []

theorem redactBackend_eq (h : Heap) (b : Backend) :
    redactBackend h b = (refsB b).foldl redactRef h := by
  unfold redactBackend refsB
  split <;> rename_i hs <;> rw [hs] <;> rfl

theorem redact_eq (h : Heap) (c : Cfg) :
    redact h c = (c.providers ++ c.backends.flatMap refsB).foldl redactRef h := by
  unfold redact
  rw [List.foldl_append]
  generalize List.foldl redactRef h c.providers = h0
  induction c.backends generalizing h0 with
  | nil => rfl
  | cons b bs ih => rw [List.foldl_cons, redactBackend_eq, ih, List.flatMap_cons, List.foldl_append]

/-- What is encoded is exactly the running configuration with every secret replaced, and the
objects of the running configuration keep their contents. -/
theorem show_spec (enc : View → Str) (h : Heap) (c : Cfg) (hv : Spec.Valid h c) :
    (show' enc h c).2 = enc (Spec.hide (view h c)) ∧
    ∀ i, i < h.length → deref (show' enc h c).1 i = deref h i := by
  obtain ⟨hv1, hv2⟩ := hv
  have hp1 := cloneRefs_heap h c.providers
  have hlen1 : (cloneRefs h c.providers).1.length = h.length + c.providers.length := by
    rw [hp1, List.length_append, List.length_map]
  obtain ⟨x, b1, b2, b3⟩ := cloneBackends_spec c.backends (cloneRefs h c.providers).1
    (fun b hb rs hs r hr => by have := hv2 b hb rs hs r hr; omega)
  let h2 := (cloneBackends (cloneRefs h c.providers).1 c.backends).1
  let c2 : Cfg := ⟨c.pub, (cloneRefs h c.providers).2,
    (cloneBackends (cloneRefs h c.providers).1 c.backends).2⟩
  have hcl : clone h c = (h2, c2) := rfl
  have hlen2 : h2.length = h.length + c.providers.length + x.length := by
    show (cloneBackends _ _).1.length = _
    rw [b1, List.length_append, hlen1]
  -- all pointers of the clone are new
  have hnewP : ∀ r ∈ c2.providers, h.length ≤ r ∧ r < h2.length := by
    intro r hr
    have : r ∈ List.range' h.length c.providers.length := hr
    rw [List.mem_range'_1] at this
    omega
  have hnewB : ∀ b ∈ c2.backends, ∀ r ∈ refsB b, h.length ≤ r ∧ r < h2.length := by
    intro b hb r hr
    unfold refsB at hr
    split at hr
    · rename_i rs hs
      have := b2 b hb rs hs r hr
      exact ⟨by omega, this.2⟩
    · cases hr
  have hall : ∀ r ∈ c2.providers ++ c2.backends.flatMap refsB, h.length ≤ r ∧ r < h2.length := by
    intro r hr
    rcases List.mem_append.1 hr with hr | hr
    · exact hnewP r hr
    · obtain ⟨b, hb, hr⟩ := List.mem_flatMap.1 hr
      exact hnewB b hb r hr
  obtain ⟨eff, untouched⟩ := eff_refs (c2.providers ++ c2.backends.flatMap refsB) h2
    (fun r hr => (hall r hr).2)
  rw [← redact_eq] at eff untouched
  have hder : ∀ i, i ∈ c2.providers ++ c2.backends.flatMap refsB →
      deref (redact h2 c2) i = ⟨(deref h2 i).pub, redacted⟩ := by
    intro i hi
    have e1 := eff.pub i
    have e2 := eff.hit i hi
    revert e1 e2
    generalize deref (redact h2 c2) i = o
    intro e1 e2
    cases o
    simp only at e1 e2
    rw [e1, e2]
  refine ⟨?_, ?_⟩
  · show enc (view (redact h2 c2) c2) = _
    congr 1
    unfold view Spec.hide
    dsimp only
    congr 1
    · have hd : c2.providers.map (deref h2) = c.providers.map (deref h) := by
        have := cloneRefs_deref h x c.providers
        rw [← b1] at this
        exact this
      rw [← hd, List.map_map]
      apply List.map_congr_left
      intro r hr
      exact hder r (List.mem_append_left _ hr)
    · have hd : c2.backends.map (viewB h2) = c.backends.map (viewB h) := by
        rw [show c2.backends.map (viewB h2) = _ from b3]
        apply List.map_congr_left
        intro b hb
        rw [hp1]
        exact viewB_mono (hv2 b hb)
      have hd' : c.backends.map (fun b => (b.pub, b.sso.map (·.map (·.map (deref h))))) =
          c2.backends.map (viewB h2) := hd.symm
      rw [hd', List.map_map]
      apply List.map_congr_left
      intro b hb
      unfold viewB
      simp only [Function.comp]
      congr 1
      cases hs : b.sso with
      | none => rfl
      | some o =>
        cases o with
        | none => rfl
        | some rs =>
          simp only [Option.map_some, List.map_map, Option.some.injEq]
          apply List.map_congr_left
          intro r hr
          apply hder r
          refine List.mem_append_right _ (List.mem_flatMap.2 ⟨b, hb, ?_⟩)
          unfold refsB
          rw [hs]
          exact hr
  · intro i hi
    show deref (redact h2 c2) i = _
    rw [untouched i (fun hm => by have := (hall i hm).1; omega)]
    show deref (cloneBackends _ _).1 i = _
    rw [b1, hp1, List.append_assoc]
    exact deref_append_left hi

/-- C50, confidentiality: two configurations that differ only in their client secrets give the
same text, whatever the encoder; the text tells nothing about the secrets. -/
theorem console_hides_secrets (enc : View → Str) (h h' : Heap) (c c' : Cfg)
    (hv : Spec.Valid h c) (hv' : Spec.Valid h' c')
    (same : Spec.hide (view h c) = Spec.hide (view h' c')) :
    (show' enc h c).2 = (show' enc h' c').2 := by
  rw [(show_spec enc h c hv).1, (show_spec enc h' c' hv').1, same]

/-- C50, what is shown: the running configuration with `**REDACTED**` for each secret of each
provider and of each client of each local OIDC server, everything else unchanged. -/
theorem console_text (enc : View → Str) (h : Heap) (c : Cfg) (hv : Spec.Valid h c) :
    (show' enc h c).2 = enc (Spec.hide (view h c)) := (show_spec enc h c hv).1

/-- C50: displaying does not modify the running configuration. -/
theorem console_preserves_config (enc : View → Str) (h : Heap) (c : Cfg) (hv : Spec.Valid h c) :
    view (show' enc h c).1 c = view h c := by
  obtain ⟨-, hs⟩ := show_spec enc h c hv
  unfold view
  congr 1
  · exact List.map_congr_left fun r hr => hs r (hv.1 r hr)
  · apply List.map_congr_left
    intro b hb
    congr 1
    cases ho : b.sso with
    | none => rfl
    | some o =>
      cases o with
      | none => rfl
      | some rs =>
        simp only [Option.map_some]
        rw [List.map_congr_left fun r hr => hs r (hv.2 b hb rs ho r hr)]

namespace Ex
def h : Heap := [⟨"google".toList, "s3cret".toList⟩, ⟨"client1".toList, "hush".toList⟩,
  ⟨"client2".toList, "hush2".toList⟩]
def h' : Heap := [⟨"google".toList, "other".toList⟩, ⟨"client1".toList, "x".toList⟩,
  ⟨"client2".toList, [] ⟩]
def c : Cfg := ⟨"acme".toList, [0], [⟨"be1".toList, none⟩, ⟨"be2".toList, some (some [1, 2])⟩]⟩
end Ex

example : Spec.Valid Ex.h Ex.c ∧ Spec.Valid Ex.h' Ex.c ∧ view Ex.h Ex.c ≠ view Ex.h' Ex.c ∧
    Spec.hide (view Ex.h Ex.c) = Spec.hide (view Ex.h' Ex.c) := by
  refine ⟨?_, ?_, by decide, by decide⟩ <;>
  · refine ⟨by decide, ?_⟩
    intro b hb rs hs r hr
    simp only [Ex.c, List.mem_cons, List.not_mem_nil, or_false] at hb
    rcases hb with rfl | rfl
    · cases hs
    · simp only [Option.some.injEq] at hs
      subst hs
      revert hr
      revert r
      decide

end Verif.Console
