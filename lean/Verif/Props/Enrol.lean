import Verif.Model.Enrol
/-!
# C169: who may register passkeys
-/
namespace Verif.Enrol

namespace Spec

/-- config.go:613-618: users are listed by address, or all users of a domain by `@domain`. Without a list all are allowed. -/
def Member (acl : Acl) (email : Str) : Prop :=
  ∀ l, acl = some l → email ∈ l ∨ (∃ u d, email = u ++ '@' :: d ∧ '@' ∉ u ∧ '@' :: d ∈ l) ∨ ('@' ∉ email ∧ ['@'] ∈ l)

/-- The callback of the provider is on a backend that uses `m` with this list. -/
def Serves (bes : Backends) (p : Provider) (m : Str) (acl : Acl) : Prop :=
  ∃ h, p.host = some h ∧ bes h = some (some ⟨m, acl⟩)

end Spec

/-! ## The rule -/

theorem domain_cut {u d : Str} (h : '@' ∉ u) : domain (u ++ '@' :: d) = d := by
  induction u with
  | nil => rfl
  | cons c u ih =>
    have hc : c ≠ '@' := fun e => h (e ▸ List.mem_cons_self)
    rw [List.cons_append, domain, if_neg hc]
    exact ih fun hm => h (List.mem_cons_of_mem _ hm)

theorem domain_none {s : Str} (h : '@' ∉ s) : domain s = [] := by
  induction s with
  | nil => rfl
  | cons c u ih =>
    have hc : c ≠ '@' := fun e => h (e ▸ List.mem_cons_self)
    rw [domain, if_neg hc]
    exact ih fun hm => h (List.mem_cons_of_mem _ hm)

theorem cut_at {s : Str} (h : '@' ∈ s) : ∃ u d, s = u ++ '@' :: d ∧ '@' ∉ u := by
  induction s with
  | nil => cases h
  | cons c s ih =>
    by_cases hc : c = '@'
    · exact ⟨[], s, by rw [hc]; rfl, by simp⟩
    · obtain ⟨u, d, rfl, hu⟩ := ih ((List.mem_cons.1 h).resolve_left (Ne.symm hc))
      refine ⟨c :: u, d, rfl, ?_⟩
      intro hm
      rcases List.mem_cons.1 hm with e | hm
      · exact hc e.symm
      · exact hu hm

/-- C169. The managers decide by the documented rule. -/
theorem rule (acl : Acl) (email : Str) : subjectIsAllowed acl email = true ↔ Spec.Member acl email := by
  unfold subjectIsAllowed Spec.Member
  cases acl with
  | none => exact ⟨fun _ l h => (by cases h), fun _ => rfl⟩
  | some l =>
    dsimp only
    rw [Bool.or_eq_true, List.contains_iff_mem, List.contains_iff_mem]
    constructor
    · rintro h l' e
      cases e
      rcases h with h | h
      · exact .inl h
      · by_cases hm : '@' ∈ email
        · obtain ⟨u, d, rfl, hu⟩ := cut_at hm
          rw [domain_cut hu] at h
          exact .inr (.inl ⟨u, d, rfl, hu, h⟩)
        · rw [domain_none hm] at h
          exact .inr (.inr ⟨hm, h⟩)
    · intro h
      rcases h l rfl with h | ⟨u, d, rfl, hu, h⟩ | ⟨hm, h⟩
      · exact .inl h
      · rw [domain_cut hu]
        exact .inr h
      · rw [domain_none hm]
        exact .inr h

/-! ## The lists -/

theorem add_other {all : List Provider} {bes : Backends} {s : Acls} {p : Provider} {m : Str} (h : ∀ acl, ¬ Spec.Serves bes p m acl) :
    addCallback all bes s p m = s m := by
  unfold addCallback
  cases hh : p.host with
  | none => rfl
  | some x =>
    dsimp only
    cases hb : bes x with
    | none => rfl
    | some b =>
      cases b with
      | none => rfl
      | some sso =>
        dsimp only
        split
        · unfold setACL
          refine if_neg ?_
          rintro rfl
          exact h sso.acl ⟨x, hh, hb⟩
        · rfl

theorem add_serves {all : List Provider} {bes : Backends} {s : Acls} {p : Provider} {m : Str} {acl : Acl}
    (hm : isManager all m = true) (h : Spec.Serves bes p m acl) : addCallback all bes s p m = acl := by
  obtain ⟨x, hh, hb⟩ := h
  unfold addCallback
  rw [hh]
  dsimp only
  rw [hb]
  dsimp only
  rw [if_pos hm]
  exact if_pos rfl

theorem serves_unique {bes : Backends} {p : Provider} {m : Str} {a b : Acl} (h1 : Spec.Serves bes p m a) (h2 : Spec.Serves bes p m b) :
    a = b := by
  obtain ⟨x, hx, hb⟩ := h1
  obtain ⟨y, hy, hb'⟩ := h2
  cases hx.symm.trans hy
  have := hb.symm.trans hb'
  simp only [Option.some.injEq, Sso.mk.injEq, true_and] at this
  exact this

/-- The list of a manager is that of the last backend with a callback that uses it. -/
theorem fold_last {all : List Provider} {bes : Backends} {m : Str} (hm : isManager all m = true) (l : List Provider) (s : Acls) :
    (∀ p ∈ l, ∀ acl, ¬ Spec.Serves bes p m acl) ∧ l.foldl (addCallback all bes) s m = s m ∨
    ∃ p ∈ l, ∃ acl, Spec.Serves bes p m acl ∧ l.foldl (addCallback all bes) s m = acl := by
  induction l generalizing s with
  | nil => exact .inl ⟨fun p hp => (by cases hp), rfl⟩
  | cons p l ih =>
    rw [List.foldl_cons]
    rcases ih (addCallback all bes s p) with ⟨h, e⟩ | ⟨q, hq, acl, h, e⟩
    · by_cases hp : ∃ acl, Spec.Serves bes p m acl
      · obtain ⟨acl, hp⟩ := hp
        exact .inr ⟨p, List.mem_cons_self, acl, hp, e.trans (add_serves hm hp)⟩
      · have hp' : ∀ acl, ¬ Spec.Serves bes p m acl := fun acl h => hp ⟨acl, h⟩
        refine .inl ⟨?_, e.trans (add_other hp')⟩
        intro q hq
        rcases List.mem_cons.1 hq with rfl | hq
        · exact hp'
        · exact h q hq
    · exact .inr ⟨q, List.mem_cons_of_mem _ hq, acl, h, e⟩

/-- C169. When the endpoint of a provider of passkeys is on a backend that uses this provider, and no callback is on a backend that
uses it with another list, those may register whom the backend's list allows, whatever the order of the providers. -/
theorem register_partial (bes : Backends) (order : List Provider) (m : Provider) (hm : m ∈ order) (hk : m.passkeys = true) (acl : Acl)
    (hs : Spec.Serves bes m m.name acl) (hone : ∀ p ∈ order, ∀ a, Spec.Serves bes p m.name a → a = acl) (email : Str) :
    subjectIsAllowed (acls bes order m.name) email = true ↔ Spec.Member acl email := by
  have him : isManager order m.name = true := List.any_eq_true.2 ⟨m, hm, by simp [hk]⟩
  have : acls bes order m.name = acl := by
    unfold acls
    rcases fold_last him order fun _ => none with ⟨h, -⟩ | ⟨p, hp, a, h, e⟩
    · exact absurd hs (h m hm acl)
    · exact e.trans (hone p hp a h)
  rw [this]
  exact rule acl email

/-- C169. When callbacks are on two backends that use the provider with different lists, it depends on the order in which the
program goes through a map, which is random, which of the lists holds: also that of the backend without the endpoint. -/
theorem order_violated (bes : Backends) (order : List Provider) (p q : Provider) (hp : p ∈ order) (hq : q ∈ order) (m : Str)
    (hm : isManager order m = true) (a b : Acl) (ha : Spec.Serves bes p m a) (hb : Spec.Serves bes q m b) :
    (∃ o, o.Perm order ∧ acls bes o m = a) ∧ ∃ o, o.Perm order ∧ acls bes o m = b := by
  have key : ∀ p a, p ∈ order → Spec.Serves bes p m a → ∃ o, o.Perm order ∧ acls bes o m = a := by
    intro p a hp ha
    have hperm : (order.erase p ++ [p]).Perm order :=
      List.perm_append_comm.trans (List.perm_cons_erase hp).symm
    refine ⟨_, hperm, ?_⟩
    have hm' : isManager (order.erase p ++ [p]) m = true := by
      obtain ⟨x, hx, h⟩ := List.any_eq_true.1 hm
      exact List.any_eq_true.2 ⟨x, hperm.mem_iff.2 hx, h⟩
    unfold acls
    rw [List.foldl_append]
    exact add_serves hm' ha
  exact ⟨key p a hp ha, key q b hq hb⟩

/-- C169. When no callback is on a backend that uses the provider — because its endpoint is on a backend of its own, or on one that
uses another provider — everybody may register whom the other provider knows, whatever the lists of the backends are. -/
theorem everybody_violated (bes : Backends) (order : List Provider) (m : Str) (h : ∀ p ∈ order, ∀ acl, ¬ Spec.Serves bes p m acl)
    (email : Str) : subjectIsAllowed (acls bes order m) email = true := by
  have : ∀ (l : List Provider) (s : Acls), (∀ p ∈ l, ∀ acl, ¬ Spec.Serves bes p m acl) →
      l.foldl (addCallback order bes) s m = s m := by
    intro l
    induction l with
    | nil => intros; rfl
    | cons p l ih =>
      intro s h
      rw [List.foldl_cons, ih _ fun q hq => h q (List.mem_cons_of_mem _ hq)]
      exact add_other (h p List.mem_cons_self)
  unfold acls
  rw [this order _ h]
  rfl

/-! ## Examples -/

def exKeys : Provider := ⟨"keys".toList, true, some "login.example".toList⟩
def exOidc : Provider := ⟨"oidc".toList, false, some "www.example".toList⟩
def exBes (login www : Backend) : Backends := fun h =>
  if h = "login.example".toList then some login else if h = "www.example".toList then some www else none

/-- Both backends use passkeys; only the users of a domain may use one of them. -/
def exTwo : Backends := exBes (some ⟨"keys".toList, some ["@example.com".toList]⟩) (some ⟨"keys".toList, none⟩)

example : subjectIsAllowed (acls exTwo [exOidc, exKeys] "keys".toList) "bob@other.example".toList = false ∧
    subjectIsAllowed (acls exTwo [exKeys, exOidc] "keys".toList) "bob@other.example".toList = true := by decide +kernel

example : Spec.Serves exTwo exKeys "keys".toList (some ["@example.com".toList]) ∧ Spec.Serves exTwo exOidc "keys".toList none :=
  ⟨⟨_, rfl, by decide +kernel⟩, ⟨_, rfl, by decide +kernel⟩⟩

/-- The endpoint is on a backend without single sign-on. -/
example : subjectIsAllowed (acls (exBes none (some ⟨"keys".toList, some []⟩)) [exKeys] "keys".toList) "bob@other.example".toList =
    true := by decide +kernel

end Verif.Enrol
