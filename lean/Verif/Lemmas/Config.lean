import Verif.Model.Config
/-! Helper lemmas about configuration validation and the routing table. -/
namespace Verif.Config

theorem bad_none {c : Prop} [Decidable c] {e : String} : bad c e = none ↔ ¬ c := by
  unfold bad; split <;> simp_all

theorem or_none {a b : Option String} : a.or b = none ↔ a = none ∧ b = none := by
  cases a <;> simp

theorem findSome_none {α : Type} {l : List α} {f : α → Option String} :
    l.findSome? f = none ↔ ∀ a ∈ l, f a = none := List.findSome?_eq_none_iff

theorem loopNames_none {α : Type} {name : α → String} {f : List String → α → Option String}
    {l : List α} {seen : List String} (h : loopNames name f seen l = none) :
    (∀ a ∈ l, name a ∉ seen) ∧ (l.map name).Nodup ∧
    ∀ pre a post, l = pre ++ a :: post → f (seen ++ pre.map name ++ [name a]) a = none := by
  induction l generalizing seen with
  | nil => simp
  | cons a t ih =>
    simp only [loopNames, or_none, bad_none] at h
    obtain ⟨h1, h2, h3⟩ := h
    obtain ⟨i1, i2, i3⟩ := ih h3
    refine ⟨?_, ?_, ?_⟩
    · intro b hb
      simp only [List.mem_cons] at hb
      rcases hb with rfl | hb
      · exact h1
      · have := i1 b hb; simp at this; exact this.1
    · simp only [List.map_cons, List.nodup_cons]
      refine ⟨?_, i2⟩
      simp only [List.mem_map, not_exists, not_and]
      intro b hb hn
      have := i1 b hb
      simp [hn] at this
    · intro pre b post he
      cases pre with
      | nil => simp at he; obtain ⟨rfl, rfl⟩ := he; simpa using h2
      | cons c pre =>
        simp at he
        obtain ⟨rfl, he⟩ := he
        have := i3 pre b post he
        simpa using this

theorem loopNames_none_mem {α : Type} {name : α → String} {f : List String → α → Option String}
    {l : List α} {seen : List String} (h : loopNames name f seen l = none) (a : α) (ha : a ∈ l) :
    ∃ pre post, l = pre ++ a :: post ∧ f (seen ++ pre.map name ++ [name a]) a = none := by
  obtain ⟨pre, post, he⟩ := List.append_of_mem ha
  exact ⟨pre, post, he, (loopNames_none h).2.2 pre a post he⟩

/-- Everything the checks establish, in one place. -/
theorem check_ok {env : Env} {raw cfg : Config} (h : check env raw = .ok cfg) :
    cfg = normalise env raw ∧ checks env raw cfg = none := by
  unfold check at h
  split at h
  · cases h
  · cases h; exact ⟨rfl, by assumption⟩

theorem check_parts {env : Env} {raw cfg : Config} (h : check env raw = .ok cfg) :
    (loopNames OIDC.name (checkOIDC env) [] cfg.oidc = none) ∧
    (loopNames SAML.name (checkSAML env) (cfg.oidc.map (·.name)) cfg.saml = none) ∧
    (loopNames Passkey.name (checkPasskey env)
      (cfg.oidc.map (·.name) ++ cfg.saml.map (·.name)) cfg.passkeys = none) ∧
    (∀ be ∈ cfg.backends, checkMode be = none) ∧
    (checkNames [] [] (namesOf cfg.backends) = none) ∧
    (loopNames PKI.name (checkPKI env cfg.backends) [] cfg.pki = none) ∧
    (loopNames SSHCA.name (checkSSH env cfg.backends) [] cfg.ssh = none) ∧
    (loopNames BWLimit.name (fun _ _ => none) [] cfg.bwLimits = none) ∧
    (∀ be ∈ cfg.backends, checkBackend env
      (cfg.oidc.map (·.name) ++ cfg.saml.map (·.name) ++ cfg.passkeys.map (·.name))
      (cfg.pki.map (·.name)) (cfg.bwLimits.map (·.name)) be = none) := by
  obtain ⟨_, h⟩ := check_ok h
  simp only [checks, or_none, findSome_none] at h
  grind

/-! ### Server names -/

theorem checkProtos_some {n : String} {ps : List String} {seen seen' : List (String × String)}
    (h : checkProtos n seen ps = some seen') :
    seen' = seen ++ ps.map (fun p => (n, p)) ∧ (∀ p ∈ ps, (n, p) ∉ seen) ∧ ps.Nodup := by
  induction ps generalizing seen with
  | nil => simp [checkProtos] at h; simp [h]
  | cons p t ih =>
    simp only [checkProtos] at h
    split at h
    · cases h
    · rename_i hn
      obtain ⟨i1, i2, i3⟩ := ih h
      refine ⟨by simp [i1], ?_, ?_⟩
      · intro q hq
        simp only [List.mem_cons] at hq
        rcases hq with rfl | hq
        · exact hn
        · have := i2 q hq; simp at this; exact this.1
      · simp only [List.nodup_cons]
        refine ⟨?_, i3⟩
        intro hp
        have := i2 p hp
        simp at this

/-- All declared (name, protocol) pairs in order. -/
def pairsOf (l : List (String × List String)) : List (String × String) :=
  l.flatMap fun e => e.2.map fun p => (e.1, p)

theorem checkNames_none {l : List (String × List String)} {names : List String}
    {keys : List (String × String)} (h : checkNames names keys l = none) :
    (pairsOf l).Nodup ∧ (∀ k ∈ pairsOf l, k ∉ keys) ∧
    (∀ pre n post, l = pre ++ (n, []) :: post → n ∉ names ∧ n ∉ pre.map (·.1)) := by
  induction l generalizing names keys with
  | nil => simp [pairsOf]
  | cons e t ih =>
    obtain ⟨n, ps⟩ := e
    simp only [checkNames, or_none, bad_none] at h
    obtain ⟨h1, h2⟩ := h
    split at h2
    · cases h2
    · rename_i keys' hk
      obtain ⟨k1, k2, k3⟩ := checkProtos_some hk
      obtain ⟨i1, i2, i3⟩ := ih h2
      subst k1
      refine ⟨?_, ?_, ?_⟩
      · have : pairsOf ((n, ps) :: t) = ps.map (fun p => (n, p)) ++ pairsOf t := by simp [pairsOf]
        rw [this, List.nodup_append]
        refine ⟨?_, i1, ?_⟩
        · rw [List.Nodup, List.pairwise_map]
          exact k3.imp (by simp)
        · intro a ha b hb hab
          subst hab
          exact i2 a hb (by simp at ha ⊢; exact Or.inr ha)
      · intro k hk'
        have : pairsOf ((n, ps) :: t) = ps.map (fun p => (n, p)) ++ pairsOf t := by simp [pairsOf]
        rw [this] at hk'
        simp only [List.mem_append, List.mem_map] at hk'
        rcases hk' with ⟨p, hp, rfl⟩ | hk'
        · exact k2 p hp
        · have := i2 k hk'; simp at this; exact this.1
      · intro pre m post he
        cases pre with
        | nil =>
          simp at he
          obtain ⟨⟨rfl, rfl⟩, rfl⟩ := he
          simp at h1; simp [h1]
        | cons c pre =>
          simp at he
          obtain ⟨rfl, he⟩ := he
          have := i3 pre m post he
          simp at this ⊢
          obtain ⟨⟨a, b⟩, c⟩ := this
          exact ⟨a, b, c⟩

/-! ### Table -/

theorem addProtos_spec (t : Table) (n : String) (i : Nat) (ps : List String) (n' p' : String) :
    addProtos t n i ps n' p' = if n' = n ∧ p' ∈ ps then some i else t n' p' := by
  induction ps generalizing t with
  | nil => simp [addProtos]
  | cons p ps ih =>
    simp only [addProtos, ih, Table.set]
    by_cases h1 : n' = n <;> by_cases h2 : p' = p <;> simp_all

theorem addNames_proto (t : Table) (i : Nat) (ps ns : List String) (n' p' : String)
    (hp : p' ≠ "") :
    addNames t i ps ns n' p' = if n' ∈ ns ∧ p' ∈ ps then some i else t n' p' := by
  induction ns generalizing t with
  | nil => simp [addNames]
  | cons n ns ih =>
    simp only [addNames, ih, addProtos_spec]
    by_cases h1 : n' = n <;> by_cases h2 : p' ∈ ps <;> by_cases h3 : n' ∈ ns <;>
      by_cases h4 : t n "" = none <;> simp_all [Table.set]

theorem addNames_default (t : Table) (i : Nat) (ps ns : List String) (n' : String)
    (hps : "" ∉ ps) :
    addNames t i ps ns n' "" = match t n' "" with
      | some j => some j
      | none => if n' ∈ ns then some i else none := by
  induction ns generalizing t with
  | nil => simp [addNames]; cases t n' "" <;> rfl
  | cons n ns ih =>
    simp only [addNames, ih, addProtos_spec]
    by_cases h1 : n' = n
    · subst h1
      cases h : t n' "" <;> simp_all [Table.set]
    · cases h : t n' "" <;> cases h4 : t n "" <;> simp_all [Table.set]

/-- Backend `be` declares the pair. -/
def declares (n p : String) (be : Backend) : Bool :=
  n ∈ be.serverNames ∧ p ∈ be.alpnProtos.getD []

theorem buildTable_default (t : Table) (i : Nat) (bs : List Backend) (n : String)
    (h : ∀ be ∈ bs, "" ∉ be.alpnProtos.getD []) :
    buildTable t i bs n "" = match t n "" with
      | some j => some j
      | none => (bs.findIdx? fun be => n ∈ be.serverNames).map (i + ·) := by
  induction bs generalizing t i with
  | nil => simp [buildTable]; cases t n "" <;> rfl
  | cons be bs ih =>
    simp only [buildTable]
    rw [ih _ _ (fun b hb => h b (by simp [hb])), addNames_default _ _ _ _ _ (h be (by simp))]
    cases ht : t n "" with
    | some j => simp
    | none =>
      simp only [List.findIdx?_cons]
      by_cases hn : n ∈ be.serverNames
      · simp [hn]
      · simp only [hn, decide_false, Bool.false_eq_true, if_false, Option.map_map]
        congr 1
        funext x
        simp only [Function.comp_def]
        omega

theorem buildTable_proto_none (t : Table) (i : Nat) (bs : List Backend) (n p : String) (hp : p ≠ "")
    (h : ∀ be ∈ bs, declares n p be = false) :
    buildTable t i bs n p = t n p := by
  induction bs generalizing t i with
  | nil => rfl
  | cons be bs ih =>
    simp only [buildTable]
    rw [ih _ _ (fun b hb => h b (by simp [hb])), addNames_proto _ _ _ _ _ _ hp]
    have := h be (by simp)
    simp only [declares, decide_eq_false_iff_not] at this
    rw [if_neg this]

theorem buildTable_proto_some (t : Table) (i : Nat) (bs : List Backend) (n p : String) (hp : p ≠ "")
    (j : Nat) (be : Backend) (hj : bs[j]? = some be) (hd : declares n p be = true)
    (hu : ∀ k b, bs[k]? = some b → declares n p b = true → k = j) :
    buildTable t i bs n p = some (i + j) := by
  induction bs generalizing t i j with
  | nil => simp at hj
  | cons b bs ih =>
    simp only [buildTable]
    cases j with
    | zero =>
      simp at hj; subst hj
      rw [buildTable_proto_none _ _ _ _ _ hp, addNames_proto _ _ _ _ _ _ hp]
      · simp only [declares, decide_eq_true_eq] at hd
        rw [if_pos hd]; rfl
      · intro b' hb'
        obtain ⟨k, hk⟩ := List.getElem?_of_mem hb'
        cases hdb : declares n p b' with
        | false => rfl
        | true => have := hu (k + 1) b' (by simpa using hk) hdb; omega
    | succ j =>
      simp at hj
      rw [ih _ _ j hj (fun k b' hk hdb => by have := hu (k + 1) b' (by simpa using hk) hdb; omega)]
      congr 1; omega

theorem findIdx?_unique {α : Type} (l : List α) (f : α → Bool) (j : Nat) (a : α)
    (hj : l[j]? = some a) (ha : f a = true)
    (hu : ∀ k b, l[k]? = some b → f b = true → k = j) : l.findIdx? f = some j := by
  induction l generalizing j with
  | nil => simp at hj
  | cons b l ih =>
    simp only [List.findIdx?_cons]
    cases j with
    | zero => simp at hj; subst hj; simp [ha]
    | succ j =>
      simp at hj
      have hb : f b = false := by
        cases hb : f b with
        | false => rfl
        | true => have := hu 0 b (by simp) hb; omega
      rw [ih j hj (fun k b' hk hdb => by have := hu (k + 1) b' (by simpa using hk) hdb; omega)]
      simp [hb]

/-- Distinct backends cannot declare the same pair when the flattened list has no
duplicates. -/
theorem pairs_unique (bs : List Backend) (h : (pairsOf (namesOf bs)).Nodup) (n p : String)
    (i j : Nat) (a b : Backend) (hi : bs[i]? = some a) (hj : bs[j]? = some b)
    (ha : declares n p a = true) (hb : declares n p b = true) : i = j := by
  have e : pairsOf (namesOf bs) =
      bs.flatMap fun be => be.serverNames.flatMap fun n => (be.alpnProtos.getD []).map fun p => (n, p) := by
    simp [pairsOf, namesOf, List.flatMap_assoc, List.flatMap_map]
  rw [e] at h
  have hm : ∀ be, declares n p be = true →
      (n, p) ∈ be.serverNames.flatMap fun n => (be.alpnProtos.getD []).map fun p => (n, p) := by
    intro be hbe
    simp only [declares, decide_eq_true_eq] at hbe
    simp only [List.mem_flatMap, List.mem_map]
    exact ⟨n, hbe.1, p, hbe.2, rfl⟩
  rw [List.Nodup, List.flatMap, List.pairwise_flatten, List.pairwise_map] at h
  have hp := h.2
  obtain ⟨hi', rfl⟩ := List.getElem?_eq_some_iff.mp hi
  obtain ⟨hj', rfl⟩ := List.getElem?_eq_some_iff.mp hj
  rw [List.pairwise_iff_getElem] at hp
  rcases Nat.lt_trichotomy i j with hlt | heq | hgt
  · exact absurd rfl (hp i j hi' hj' hlt _ (hm _ ha) _ (hm _ hb))
  · exact heq
  · exact absurd rfl (hp j i hj' hi' hgt _ (hm _ hb) _ (hm _ ha))

end Verif.Config
