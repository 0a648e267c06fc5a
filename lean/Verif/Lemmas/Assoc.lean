import Verif.Model.Assoc

/-! Lemmas about association lists. -/

namespace Verif.Assoc

variable {κ α : Type} [DecidableEq κ]

theorem get_mem {t : List (κ × α)} {k : κ} {v : α} (h : get t k = some v) : (k, v) ∈ t := by
  induction t with
  | nil => cases h
  | cons p t ih =>
    obtain ⟨a, b⟩ := p
    unfold get at h
    split at h
    · rename_i he
      cases h
      subst he
      exact List.mem_cons_self
    · exact List.mem_cons_of_mem _ (ih h)

theorem mem_del {t : List (κ × α)} {k : κ} {x : κ × α} : x ∈ del t k ↔ x ∈ t ∧ x.1 ≠ k := by
  unfold del
  rw [List.mem_filter]
  simp

theorem mem_put {t : List (κ × α)} {k : κ} {v : α} {x : κ × α} :
    x ∈ put t k v ↔ x = (k, v) ∨ (x ∈ t ∧ x.1 ≠ k) := by
  unfold put
  rw [List.mem_cons, mem_del]

theorem get_del (t : List (κ × α)) (k k' : κ) :
    get (del t k) k' = if k' = k then none else get t k' := by
  unfold del
  induction t with
  | nil => simp [get]
  | cons p t ih =>
    obtain ⟨a, b⟩ := p
    by_cases ha : a = k
    · subst ha
      rw [List.filter_cons_of_neg (by simp), ih]
      by_cases hk : k' = a
      · rw [if_pos hk, if_pos hk]
      · rw [if_neg hk, if_neg hk, get, if_neg (Ne.symm hk)]
    · rw [List.filter_cons_of_pos (by simpa using ha), get, ih]
      by_cases hk : a = k'
      · subst hk
        rw [if_pos rfl, if_neg ha, get, if_pos rfl]
      · rw [if_neg hk]
        by_cases hk' : k' = k
        · rw [if_pos hk', if_pos hk']
        · rw [if_neg hk', if_neg hk', get, if_neg hk]

theorem get_put (t : List (κ × α)) (k k' : κ) (v : α) :
    get (put t k v) k' = if k' = k then some v else get t k' := by
  unfold put
  rw [get]
  by_cases h : k = k'
  · rw [if_pos h, if_pos h.symm]
  · rw [if_neg h, get_del, if_neg (Ne.symm h), if_neg (Ne.symm h)]

theorem get_eq_none {t : List (κ × α)} {k : κ} : get t k = none ↔ ∀ v, (k, v) ∉ t := by
  induction t with
  | nil => simp [get]
  | cons p t ih =>
    obtain ⟨a, b⟩ := p
    unfold get
    by_cases ha : a = k
    · subst ha
      rw [if_pos rfl]
      simp only [reduceCtorEq, false_iff]
      intro h
      exact h b List.mem_cons_self
    · rw [if_neg ha, ih]
      constructor
      · intro h v hv
        rcases List.mem_cons.1 hv with hv | hv
        · cases hv; exact ha rfl
        · exact h v hv
      · intro h v hv
        exact h v (List.mem_cons_of_mem _ hv)

theorem get_overlay (a t : List (κ × α)) (k : κ) :
    get (overlay a t) k = (get a k).or (get t k) := by
  unfold overlay
  induction a with
  | nil => simp [get]
  | cons p a ih =>
    obtain ⟨x, y⟩ := p
    rw [List.cons_append, get, get]
    by_cases h : x = k
    · rw [if_pos h, if_pos h]
      rfl
    · rw [if_neg h, if_neg h, ih]

end Verif.Assoc
