import Verif.Model.Keys

/-!
# C44, C45, C46: the signing keys

The statements do not use the internals of `rotate`: an execution is a sequence of process
starts and rotations, and the claims are about the key `createToken` signs with and the key
`getKey` finds.
-/

namespace Verif.Keys

/-! ## Environment assumptions and executions -/

/-- A group of keys as `createNewTokenKeys` makes it: one key of each kind, created less than
`H` before or after the time the rotation read the clock. -/
def IsGroup (tpm : Bool) (H now : Nat) (g : List Key) : Prop :=
  g.map (·.kind) = groupKinds tpm ∧ ∀ k ∈ g, k.created ≤ now + H ∧ now ≤ k.created + H

/-- Key creation makes complete groups in less than `H`, and the stored keys can be loaded. -/
structure EnvOk (tpm : Bool) (H : Nat) (e : Env) : Prop where
  first : ∀ g, e.first = some g → IsGroup tpm H e.now g
  next : ∀ g, e.next = some g → IsGroup tpm H e.now g
  loads : ∀ k, e.loads k = true

/-- States of a running process: it was started with an empty store, rotated its keys any number
of times - the file may have been unreadable, key creation or the commit may have failed - and
was restarted any number of times. (A start that fails leaves the store as it was.) -/
inductive Runs (tpm : Bool) (H : Nat) : State → Prop
  | init (e : Env) (s : State) : EnvOk tpm H e → start e [] = some s → Runs tpm H s
  | rotate (e : Env) (s : State) : Runs tpm H s → EnvOk tpm H e → Runs tpm H (rotate e s)
  | restart (e : Env) (s s' : State) : Runs tpm H s → EnvOk tpm H e →
      start e s.stored = some s' → Runs tpm H s'

/-! ## Lemmas about rotation -/

theorem grow_cases {e : Env} {ks : List Key} {p : List Key × Bool} {tpm : Bool} {H : Nat}
    (ok : EnvOk tpm H e) (hH : H ≤ day) (h : grow e ks = some p) :
    (ks = [] ∧ e.first = some p.1 ∧ p.2 = true ∧ IsGroup tpm H e.now p.1) ∨
    (∃ a g, ks.getLast? = some a ∧ a.created + day < e.now ∧ IsGroup tpm H e.now g ∧
      e.next = some g ∧ p = (ks ++ g, true)) ∨
    (∃ a, ks.getLast? = some a ∧ e.now ≤ a.created + day ∧ p = (ks, false)) := by
  unfold grow at h
  cases ks with
  | nil =>
    simp only [List.isEmpty_nil, if_true, List.nil_append] at h
    cases hf : e.first with
    | none => rw [hf] at h; simp at h
    | some g =>
      rw [hf] at h
      simp only [Option.map_some] at h
      have hg := ok.first g hf
      cases hl : g.getLast? with
      | none => rw [hl] at h; simp at h
      | some a =>
        rw [hl] at h
        dsimp only at h
        have hm : a ∈ g := List.mem_of_getLast? hl
        have := (hg.2 a hm).2
        rw [if_neg (by omega)] at h
        simp only [Option.some.injEq] at h
        subst h
        exact Or.inl ⟨rfl, rfl, rfl, hg⟩
  | cons k l =>
    simp only [List.isEmpty_cons, Bool.false_eq_true, if_false] at h
    cases hl : (k :: l).getLast? with
    | none => rw [hl] at h; simp at h
    | some a =>
      rw [hl] at h
      dsimp only at h
      by_cases hc : a.created + day < e.now
      · rw [if_pos hc] at h
        cases hn : e.next with
        | none => rw [hn] at h; simp at h
        | some g =>
          rw [hn] at h
          simp only [Option.map_some, Option.some.injEq] at h
          exact Or.inr (Or.inl ⟨a, g, rfl, hc, ok.next g hn, rfl, h.symm⟩)
      · rw [if_neg hc] at h
        simp only [Option.some.injEq] at h
        exact Or.inr (Or.inr ⟨a, rfl, by omega, h.symm⟩)

theorem expire_cases (now : Nat) (p : List Key × Bool) :
    expire now p = p ∨ ∃ k, p.1 = k :: (expire now p).1 ∧ k.created + 7 * day < now := by
  obtain ⟨ks, c⟩ := p
  cases ks with
  | nil => exact Or.inl rfl
  | cons k l =>
    unfold expire
    dsimp only
    by_cases h : k.created + 7 * day < now
    · rw [if_pos h]; exact Or.inr ⟨k, rfl, h⟩
    · rw [if_neg h]; exact Or.inl rfl

/-- The key list ends in a complete group whose members were created close together. -/
def Ends (tpm : Bool) (H : Nat) (ks : List Key) : Prop :=
  ∃ pre g c, ks = pre ++ g ∧ g.map (·.kind) = groupKinds tpm ∧
    ∀ k ∈ g, k.created ≤ c + H ∧ c ≤ k.created + H

theorem getLast?_append_right {α : Type} (l : List α) {r : List α} (h : r ≠ []) :
    (l ++ r).getLast? = r.getLast? := by
  rw [List.getLast?_append]
  cases hr : r.getLast? with
  | none => exact absurd (List.getLast?_eq_none_iff.1 hr) h
  | some a => rfl

theorem group_ne_nil {tpm : Bool} {g : List Key} (h : g.map (·.kind) = groupKinds tpm) :
    g ≠ [] := by
  intro e
  subst e
  cases tpm <;> simp [groupKinds] at h

theorem rotated_ends {e : Env} {ks : List Key} {p : List Key × Bool} {tpm : Bool} {H : Nat}
    (ok : EnvOk tpm H e) (hH : H ≤ day) (hs : ks = [] ∨ Ends tpm H ks)
    (h : grow e ks = some p) : Ends tpm H (expire e.now p).1 := by
  -- first: a list ending in a group that is not a week old
  have key : ∃ pre g c, p.1 = pre ++ g ∧ g.map (·.kind) = groupKinds tpm ∧
      (∀ k ∈ g, k.created ≤ c + H ∧ c ≤ k.created + H) ∧
      ∀ k ∈ g, e.now ≤ k.created + 7 * day := by
    rcases grow_cases ok hH h with ⟨-, -, -, hg⟩ | ⟨a, g, -, -, hg, -, rfl⟩ | ⟨a, hl, hn, rfl⟩
    · refine ⟨[], p.1, e.now, rfl, hg.1, fun k hk => hg.2 k hk, fun k hk => ?_⟩
      have := (hg.2 k hk).2
      unfold day hour at *
      omega
    · refine ⟨ks, g, e.now, rfl, hg.1, fun k hk => hg.2 k hk, fun k hk => ?_⟩
      have := (hg.2 k hk).2
      unfold day hour at *
      omega
    · rcases hs with rfl | ⟨pre, g, c, rfl, hk, hc⟩
      · simp at hl
      · refine ⟨pre, g, c, rfl, hk, hc, fun k hkm => ?_⟩
        have hne := group_ne_nil hk
        rw [getLast?_append_right _ hne] at hl
        have ha := hc a (List.mem_of_getLast? hl)
        have hk' := hc k hkm
        unfold day hour at *
        omega
  obtain ⟨pre, g, c, hp, hk, hc, hfresh⟩ := key
  rcases expire_cases e.now p with he | ⟨x, hx, hold⟩
  · rw [he]; exact ⟨pre, g, c, hp, hk, hc⟩
  · cases pre with
    | nil =>
      rw [List.nil_append] at hp
      have : x ∈ g := by rw [← hp, hx]; exact List.mem_cons_self
      have := hfresh x this
      omega
    | cons y pre =>
      rw [hp] at hx
      simp only [List.cons_append, List.cons.injEq] at hx
      exact ⟨pre, g, c, hx.2.symm, hk, hc⟩

theorem filter_loads {e : Env} (h : ∀ k, e.loads k = true) (l : List Key) :
    l.filter e.loads = l := List.filter_eq_self.2 fun k _ => h k

theorem rotate_ends {e : Env} {s : State} {tpm : Bool} {H : Nat} (ok : EnvOk tpm H e)
    (hH : H ≤ day) (hs : s.stored = [] ∨ Ends tpm H s.stored)
    (hm : Ends tpm H s.mem ∨ (s.mem = [] ∧ rotateFails e s = false)) :
    ((rotate e s).stored = [] ∨ Ends tpm H (rotate e s).stored) ∧
      Ends tpm H (rotate e s).mem := by
  unfold rotate
  cases ho : e.openOk with
  | false =>
    simp only [Bool.not_false, if_true]
    refine ⟨hs, hm.resolve_right ?_⟩
    rintro ⟨-, hf⟩
    simp [rotateFails, ho] at hf
  | true =>
    simp only [Bool.not_true, Bool.false_eq_true, if_false]
    cases hg : grow e s.stored with
    | none =>
      refine ⟨hs, hm.resolve_right ?_⟩
      rintro ⟨-, hf⟩
      simp [rotateFails, hg] at hf
    | some p =>
      have hr := rotated_ends ok hH hs hg
      dsimp only
      split
      · rename_i hc
        refine ⟨hs, hm.resolve_right ?_⟩
        rintro ⟨hn, -⟩
        rw [hn] at hc
        simp at hc
      · rw [filter_loads ok.loads]
        refine ⟨?_, hr⟩
        dsimp only
        split
        · exact Or.inr hr
        · exact hs

theorem runs_ends {tpm : Bool} {H : Nat} (hH : H ≤ day) {s : State} (h : Runs tpm H s) :
    (s.stored = [] ∨ Ends tpm H s.stored) ∧ Ends tpm H s.mem := by
  have st : ∀ (e : Env) (l : List Key) (s' : State), EnvOk tpm H e → (l = [] ∨ Ends tpm H l) →
      start e l = some s' →
      (s'.stored = [] ∨ Ends tpm H s'.stored) ∧ Ends tpm H s'.mem := by
    intro e l s' ok hl h
    unfold start at h
    dsimp only at h
    split at h
    · exact absurd h (by simp)
    · rename_i hf
      simp only [Option.some.injEq] at h
      subst h
      exact rotate_ends ok hH hl (Or.inr ⟨rfl, by simpa using hf⟩)
  induction h with
  | init e s ok h => exact st e [] s ok (Or.inl rfl) h
  | rotate e s _ ok ih => exact rotate_ends ok hH ih.1 (Or.inl ih.2)
  | restart e s s' _ ok h ih => exact st e s.stored s' ok ih.1 h

/-! ## The choice of a key -/

/-- One step of the loop of `CreateToken`. -/
def pick (now : Nat) (tk : Option Key) (k : Key) : Option Key :=
  if tk.isNone || k.created + 2 * hour < now then some k else tk

theorem select_eq (kind : Kind) (now : Nat) (ks : List Key) :
    select kind now ks = (ks.filter (·.kind = kind)).foldl (pick now) none := rfl

theorem pick_isSome (now : Nat) (tk : Option Key) (k : Key) : (pick now tk k).isSome := by
  unfold pick
  cases tk with
  | none => simp
  | some x => split <;> rfl

theorem foldl_pick_snoc (now : Nat) (l : List Key) (k : Key) :
    (l ++ [k]).foldl (pick now) none = pick now (l.foldl (pick now) none) k := by
  rw [List.foldl_append]; rfl

theorem snoc_induction {α : Type} {P : List α → Prop} (h0 : P [])
    (hs : ∀ l a, P l → P (l ++ [a])) (l : List α) : P l := by
  have : ∀ r : List α, P r.reverse := by
    intro r
    induction r with
    | nil => exact h0
    | cons a r ih => rw [List.reverse_cons]; exact hs _ _ ih
  have := this l.reverse
  rwa [List.reverse_reverse] at this

theorem foldl_pick_isSome (now : Nat) (l : List Key) (h : l ≠ []) :
    ((l.foldl (pick now) none)).isSome := by
  induction l using snoc_induction with
  | h0 => exact absurd rfl h
  | hs l a _ => rw [foldl_pick_snoc]; exact pick_isSome _ _ _

theorem foldl_pick_mem (now : Nat) (l : List Key) (k : Key)
    (h : l.foldl (pick now) none = some k) : k ∈ l := by
  induction l using snoc_induction generalizing k with
  | h0 => simp at h
  | hs l a ih =>
    rw [foldl_pick_snoc] at h
    unfold pick at h
    split at h
    · simp only [Option.some.injEq] at h; subst h; simp
    · exact List.mem_append_left _ (ih k h)

theorem select_mem {kind : Kind} {now : Nat} {ks : List Key} {k : Key}
    (h : select kind now ks = some k) : k ∈ ks ∧ k.kind = kind := by
  have := foldl_pick_mem now _ k h
  rw [List.mem_filter] at this
  exact ⟨this.1, by simpa using this.2⟩

/-- Algorithms the proxy signs with: the default for login and URL tokens, ES256 for ID tokens,
RS256 for OpenID Connect tokens (cookiemanager.go:86, 128; urltoken.go:79; oidc/server.go:316),
and EdDSA when there is no TPM. -/
def Supported (tpm : Bool) (alg : Alg) : Prop := alg = .eddsa → tpm = false

instance (tpm : Bool) (alg : Alg) : Decidable (Supported tpm alg) := by
  unfold Supported; infer_instance

theorem supported_kind {tpm : Bool} {alg : Alg} (h : Supported tpm alg) :
    alg.kind tpm ∈ groupKinds tpm := by
  cases tpm <;> cases alg <;> simp_all [Supported, Alg.kind, groupKinds]

/-- C44 (partial: the stored keys can always be loaded again, see
`signing_key_available_violated`). In every state a running process can be in, there is a
signing key for every supported algorithm, whatever the times of the rotations. -/
theorem signing_key_available_partial (tpm : Bool) (H : Nat) (hH : H ≤ day) (s : State)
    (h : Runs tpm H s) (alg : Alg) (ha : Supported tpm alg) (now : Nat) :
    ∃ k ∈ s.mem, createToken tpm alg now s = .signed k ∧ k.kind = alg.kind tpm := by
  obtain ⟨-, pre, g, c, hm, hk, -⟩ := runs_ends hH h
  have hin : alg.kind tpm ∈ g.map (·.kind) := by rw [hk]; exact supported_kind ha
  obtain ⟨k, hkg, hkk⟩ := List.mem_map.1 hin
  have hne : s.mem.filter (·.kind = alg.kind tpm) ≠ [] := by
    intro e
    have : k ∈ s.mem.filter (·.kind = alg.kind tpm) := by
      rw [List.mem_filter, hm]
      exact ⟨List.mem_append_right _ hkg, by simpa using hkk⟩
    rw [e] at this
    exact absurd this (by simp)
  have hs := foldl_pick_isSome now _ hne
  rw [← select_eq] at hs
  obtain ⟨r, hr⟩ := Option.isSome_iff_exists.1 hs
  refine ⟨r, (select_mem hr).1, ?_, (select_mem hr).2⟩
  unfold createToken
  rw [hr]

/-- C46. The algorithm decides about the kind of the key: what asks for RS256 is signed with an RSA key, for ES256 with
an ECDSA key and for EdDSA with an Ed25519 key; what leaves it open is signed with an ECDSA key if the keys are in a TPM
and with an Ed25519 key otherwise. -/
theorem signing_algorithm (tpm : Bool) (alg : Alg) (now : Nat) (s : State) (k : Key)
    (h : createToken tpm alg now s = .signed k) :
    k ∈ s.mem ∧ (k.kind = .rsa ↔ alg = .rs256) ∧ (k.kind = .ecdsa ↔ alg = .es256 ∨ alg = .default ∧ tpm = true) ∧
      (k.kind = .ed25519 ↔ alg = .eddsa ∨ alg = .default ∧ tpm = false) := by
  unfold createToken at h
  cases hs : select (alg.kind tpm) now s.mem with
  | none => rw [hs] at h; cases h
  | some r =>
    rw [hs] at h
    cases h
    obtain ⟨h1, h2⟩ := select_mem hs
    refine ⟨h1, ?_⟩
    rw [h2]
    cases tpm <;> cases alg <;> decide

/-! ### Concrete environments, used in the examples -/

namespace Ex

def grp (id now : Nat) : List Key :=
  [⟨id, .ecdsa, now⟩, ⟨id + 1, .rsa, now⟩, ⟨id + 2, .ed25519, now⟩]

def env (id now : Nat) : Env :=
  { now, first := some (grp id now), next := some (grp id now), loads := fun _ => true,
    openOk := true, commitOk := true }

theorem env_ok (id now : Nat) : EnvOk false hour (env id now) := by
  have hg : IsGroup false hour now (grp id now) := by
    refine ⟨rfl, ?_⟩
    intro k hk
    simp only [grp, List.mem_cons, List.not_mem_nil, or_false] at hk
    rcases hk with rfl | rfl | rfl <;> simp [hour]
  exact ⟨fun g h => by cases h; exact hg, fun g h => by cases h; exact hg, fun _ => rfl⟩

/-- Start at time 0, rotate after 25 hours, restart after 8 days. -/
def s0 : State := rotate (env 0 0) { stored := [], mem := [] }
def s1 : State := rotate (env 3 (25 * hour)) s0
def s2 : State := rotate (env 6 (8 * day)) { stored := s1.stored, mem := [] }

theorem s2_runs : Runs false hour s2 :=
  .restart (env 6 (8 * day)) s1 s2
    (.rotate (env 3 (25 * hour)) s0 (.init (env 0 0) s0 (env_ok 0 0) (by decide)) (env_ok _ _))
    (env_ok _ _) (by decide)

end Ex

/-- Two rotations and a restart; the oldest key has been dropped and a third group added. -/
example : Ex.s2.mem.map (·.id) = [1, 2, 3, 4, 5, 6, 7, 8] := by decide
example : Runs false hour Ex.s2 ∧ Supported false .eddsa ∧
    createToken false .eddsa (8 * day) Ex.s2 = .signed ⟨5, .ed25519, 25 * hour⟩ :=
  ⟨Ex.s2_runs, by decide, by decide⟩

/-- C44, the missing part. Stored keys that cannot be loaded - for instance after switching the
TPM on or off - are all dropped by `rotateKeys` (tokenmanager.go:168-187), the start succeeds,
and until the next rotation every token creation dereferences a nil pointer (line 370). -/
theorem signing_key_available_violated :
    ∃ (e : Env) (s s' : State), Runs false hour s ∧ start e s.stored = some s' ∧
      ∀ alg now, createToken false alg now s' = .panic := by
  refine ⟨{ Ex.env 6 hour with loads := fun _ => false }, Ex.s0,
    { stored := [], mem := [] }, .init (Ex.env 0 0) Ex.s0 (Ex.env_ok 0 0) (by decide),
    by decide, ?_⟩
  intro alg now
  cases alg <;> rfl

/-! ## C46: which key signs -/

/-- Specification: `k` is the most recent published key of the kind that is more than two hours
old, or, if there is none, the first one of the kind. Independent of the loop. -/
def Spec.Signs (kind : Kind) (now : Nat) (ks : List Key) (k : Key) : Prop :=
  k ∈ ks ∧ k.kind = kind ∧
  ((k.created + 2 * hour < now ∧
      ∃ l r, ks = l ++ k :: r ∧ ∀ x ∈ r, x.kind = kind → now ≤ x.created + 2 * hour) ∨
   ((∀ x ∈ ks, x.kind = kind → now ≤ x.created + 2 * hour) ∧
      ∃ l r, ks = l ++ k :: r ∧ ∀ x ∈ l, x.kind ≠ kind))

theorem select_snoc (kind : Kind) (now : Nat) (ks : List Key) (a : Key) :
    select kind now (ks ++ [a]) =
      if a.kind = kind then pick now (select kind now ks) a else select kind now ks := by
  rw [select_eq, List.filter_append]
  by_cases h : a.kind = kind
  · rw [if_pos h]
    have : [a].filter (fun x => decide (x.kind = kind)) = [a] := by simp [h]
    rw [this, foldl_pick_snoc]
    rfl
  · rw [if_neg h]
    have : [a].filter (fun x => decide (x.kind = kind)) = [] := by simp [h]
    rw [this, List.append_nil]
    rfl

theorem select_none {kind : Kind} {now : Nat} {ks : List Key}
    (h : select kind now ks = none) : ∀ x ∈ ks, x.kind ≠ kind := by
  intro x hx hk
  have hne : ks.filter (·.kind = kind) ≠ [] := by
    intro e
    have : x ∈ ks.filter (·.kind = kind) := List.mem_filter.2 ⟨hx, by simpa using hk⟩
    rw [e] at this
    exact absurd this (by simp)
  have := foldl_pick_isSome now _ hne
  rw [← select_eq, h] at this
  exact absurd this (by simp)

/-- The key `CreateToken` signs with is exactly the one of the specification. -/
theorem select_spec (kind : Kind) (now : Nat) (ks : List Key) (k : Key)
    (h : select kind now ks = some k) : Spec.Signs kind now ks k := by
  induction ks using snoc_induction generalizing k with
  | h0 => simp [select] at h
  | hs ks a ih =>
    rw [select_snoc] at h
    by_cases ha : a.kind = kind
    · rw [if_pos ha] at h
      unfold pick at h
      split at h
      · rename_i hc
        simp only [Option.some.injEq] at h
        subst h
        refine ⟨by simp, ha, ?_⟩
        by_cases hold : a.created + 2 * hour < now
        · exact Or.inl ⟨hold, ks, [], rfl, by simp⟩
        · right
          have hn : select kind now ks = none := by
            simpa [hold] using hc
          have hno := select_none hn
          refine ⟨?_, ks, [], rfl, hno⟩
          intro x hx hk
          rcases List.mem_append.1 hx with hx | hx
          · exact absurd hk (hno x hx)
          · rw [List.mem_singleton] at hx
            subst hx
            omega
      · rename_i hc
        have hc' : ¬ a.created + 2 * hour < now := by
          intro h'; apply hc; simp [h']
        obtain ⟨hm, hk, h1 | h2⟩ := ih k h
        · obtain ⟨hold, l, r, rfl, hr⟩ := h1
          refine ⟨List.mem_append_left _ hm, hk, Or.inl ⟨hold, l, r ++ [a], by simp, ?_⟩⟩
          intro x hx hxk
          rcases List.mem_append.1 hx with hx | hx
          · exact hr x hx hxk
          · rw [List.mem_singleton] at hx
            subst hx
            omega
        · obtain ⟨hall, l, r, rfl, hl⟩ := h2
          refine ⟨List.mem_append_left _ hm, hk, Or.inr ⟨?_, l, r ++ [a], by simp, hl⟩⟩
          intro x hx hxk
          rcases List.mem_append.1 hx with hx | hx
          · exact hall x hx hxk
          · rw [List.mem_singleton] at hx
            subst hx
            omega
    · rw [if_neg ha] at h
      obtain ⟨hm, hk, h1 | h2⟩ := ih k h
      · obtain ⟨hold, l, r, rfl, hr⟩ := h1
        refine ⟨List.mem_append_left _ hm, hk, Or.inl ⟨hold, l, r ++ [a], by simp, ?_⟩⟩
        intro x hx hxk
        rcases List.mem_append.1 hx with hx | hx
        · exact hr x hx hxk
        · rw [List.mem_singleton] at hx
          subst hx
          exact absurd hxk ha
      · obtain ⟨hall, l, r, rfl, hl⟩ := h2
        refine ⟨List.mem_append_left _ hm, hk, Or.inr ⟨?_, l, r ++ [a], by simp, hl⟩⟩
        intro x hx hxk
        rcases List.mem_append.1 hx with hx | hx
        · exact hall x hx hxk
        · rw [List.mem_singleton] at hx
          subst hx
          exact absurd hxk ha

/-- C46. If the key set holds a key of the needed kind that was published more than two hours
ago, the token is signed with such a key - the most recent one. -/
theorem signs_with_published_key (tpm : Bool) (alg : Alg) (now : Nat) (s : State) (old : Key)
    (hm : old ∈ s.mem) (hk : old.kind = alg.kind tpm) (ho : old.created + 2 * hour < now) :
    ∃ k, createToken tpm alg now s = .signed k ∧ k.kind = alg.kind tpm ∧
      k.created + 2 * hour < now ∧
      ∃ l r, s.mem = l ++ k :: r ∧
        ∀ x ∈ r, x.kind = alg.kind tpm → now ≤ x.created + 2 * hour := by
  unfold createToken
  cases h : select (alg.kind tpm) now s.mem with
  | none => exact absurd hk (select_none h old hm)
  | some k =>
    obtain ⟨-, hkk, ⟨hold, hl⟩ | ⟨hall, -⟩⟩ := select_spec _ _ _ _ h
    · exact ⟨k, rfl, hkk, hold, hl⟩
    · have := hall old hm hk
      omega

/-- Non-trivial instance: a group that is a day old and a group made an hour ago. -/
example :
    let s : State := ⟨[], Ex.grp 0 0 ++ Ex.grp 3 (25 * hour)⟩
    (⟨1, .rsa, 0⟩ : Key) ∈ s.mem ∧ 0 + 2 * hour < 26 * hour ∧
      createToken false .rs256 (26 * hour) s = .signed ⟨1, .rsa, 0⟩ := by decide

/-- The algorithms of a proxy whose keys are in a TPM. -/
example :
    let s : State := ⟨[], [⟨0, .ecdsa, 0⟩, ⟨1, .rsa, 0⟩]⟩
    createToken true .default (26 * hour) s = .signed ⟨0, .ecdsa, 0⟩ ∧
      createToken true .rs256 (26 * hour) s = .signed ⟨1, .rsa, 0⟩ := by decide

/-! ## C45: tokens stay verifiable -/

/-- Fresh identifiers. -/
def Fresh (e : Env) (s : State) : Prop :=
  ∀ g, (e.first = some g ∨ e.next = some g) →
    (g.map (·.id)).Nodup ∧ ∀ k ∈ g, k.id ∉ s.stored.map (·.id)

/-- One successful rotation at time `t' = e.now`, at most `G` after the previous one at `t`, in
the running process or by a restart. -/
inductive TStep (tpm : Bool) (G H : Nat) : Nat × State → Nat × State → Prop
  | rotate (e : Env) (t : Nat) (s : State) : EnvOk tpm H e → Fresh e s → t ≤ e.now →
      e.now ≤ t + G → rotateFails e s = false → TStep tpm G H (t, s) (e.now, rotate e s)
  | restart (e : Env) (t : Nat) (s s' : State) : EnvOk tpm H e → Fresh e s → t ≤ e.now →
      e.now ≤ t + G → start e s.stored = some s' → TStep tpm G H (t, s) (e.now, s')

inductive Later (tpm : Bool) (G H : Nat) : Nat × State → Nat × State → Prop
  | refl (p : Nat × State) : Later tpm G H p p
  | step (p q r : Nat × State) : Later tpm G H p q → TStep tpm G H q r → Later tpm G H p r

/-- Histories: a first start with an empty store, then successful rotations and restarts, no two
consecutive ones more than `G` apart. (A rotation that fails before the commit changes nothing
and is left out of the history.) -/
def Hist (tpm : Bool) (G H t : Nat) (s : State) : Prop :=
  ∃ e s0, EnvOk tpm H e ∧ Fresh e { stored := [], mem := [] } ∧ start e [] = some s0 ∧
    Later tpm G H (e.now, s0) (t, s)

def Linked (D : Nat) : List Key → Prop
  | a :: b :: l => b.created ≤ a.created + D ∧ Linked D (b :: l)
  | _ => True

theorem linked_tail {D : Nat} {a : Key} {l : List Key} (h : Linked D (a :: l)) : Linked D l := by
  cases l with
  | nil => trivial
  | cons b l => exact h.2

theorem linked_snoc {D : Nat} {l : List Key} {k : Key} (h : Linked D l)
    (hk : ∀ x, l.getLast? = some x → k.created ≤ x.created + D) : Linked D (l ++ [k]) := by
  induction l with
  | nil => trivial
  | cons a l ih =>
    cases l with
    | nil => exact ⟨hk a rfl, trivial⟩
    | cons b l =>
      refine ⟨h.1, ih h.2 ?_⟩
      intro x hx
      exact hk x (by rw [List.getLast?_cons_cons]; exact hx)

theorem linked_init {D : Nat} {l : List Key} {k : Key} (h : Linked D (l ++ [k])) : Linked D l := by
  induction l with
  | nil => trivial
  | cons a l ih =>
    cases l with
    | nil => trivial
    | cons b l => exact ⟨h.1, ih h.2⟩

theorem linked_last {D : Nat} {l : List Key} {x k : Key} (h : Linked D (l ++ [k]))
    (hx : l.getLast? = some x) : k.created ≤ x.created + D := by
  induction l with
  | nil => simp at hx
  | cons a l ih =>
    cases l with
    | nil => simp at hx; subst hx; exact h.1
    | cons b l => exact ih h.2 (by rwa [List.getLast?_cons_cons] at hx)

/-- A key chosen from a list without large gaps, whose last key is not too old, is not too old. -/
theorem pick_recent {now D B : Nat} (hB : D + 2 * hour ≤ B) (l : List Key) (hl : Linked D l)
    (hlast : ∀ x, l.getLast? = some x → now ≤ x.created + B) (k : Key)
    (h : l.foldl (pick now) none = some k) : now ≤ k.created + B := by
  induction l using snoc_induction with
  | h0 => simp at h
  | hs l a ih =>
    rw [foldl_pick_snoc] at h
    unfold pick at h
    split at h
    · simp only [Option.some.injEq] at h
      subst h
      exact hlast a (by simp)
    · rename_i hc
      have hc' : ¬ a.created + 2 * hour < now := by
        intro h'; apply hc; simp [h']
      refine ih (linked_init hl) ?_ h
      intro x hx
      have := linked_last hl hx
      omega

/-- Invariant of histories. -/
structure Inv (tpm : Bool) (G H t : Nat) (ks : List Key) : Prop where
  ends : ∃ pre g c, ks = pre ++ g ∧ g.map (·.kind) = groupKinds tpm ∧
    (∀ k ∈ g, k.created ≤ c + H ∧ c ≤ k.created + H) ∧ t ≤ c + day + H
  kinds : ∀ k ∈ ks, k.kind ∈ groupKinds tpm
  linked : ∀ K, Linked (day + G + 3 * H) (ks.filter (·.kind = K))
  ids : (ks.map (·.id)).Nodup

theorem filter_group {tpm : Bool} {g : List Key} (h : g.map (·.kind) = groupKinds tpm) (K : Kind) :
    (g.filter (·.kind = K) = [] ∧ K ∉ groupKinds tpm) ∨
      ∃ k ∈ g, g.filter (·.kind = K) = [k] := by
  cases tpm with
  | true =>
    obtain ⟨a, g, rfl⟩ := List.exists_cons_of_ne_nil (group_ne_nil (tpm := true) h)
    obtain ⟨b, g, rfl⟩ := List.exists_cons_of_ne_nil
      (l := g) (by rintro rfl; simp [groupKinds] at h)
    have : g = [] := by simpa [groupKinds] using congrArg List.length h
    subst this
    simp only [groupKinds, List.map_cons, List.map_nil, if_true, List.cons.injEq, and_true] at h
    obtain ⟨ha, hb⟩ := h
    cases K <;> simp [ha, hb, groupKinds]
  | false =>
    obtain ⟨a, g, rfl⟩ := List.exists_cons_of_ne_nil (group_ne_nil (tpm := false) h)
    obtain ⟨b, g, rfl⟩ := List.exists_cons_of_ne_nil
      (l := g) (by rintro rfl; simp [groupKinds] at h)
    obtain ⟨c, g, rfl⟩ := List.exists_cons_of_ne_nil
      (l := g) (by rintro rfl; simp [groupKinds] at h)
    have : g = [] := by simpa [groupKinds] using congrArg List.length h
    subst this
    simp only [groupKinds, List.map_cons, List.map_nil, Bool.false_eq_true, if_false,
      List.cons.injEq, and_true] at h
    obtain ⟨ha, hb, hc⟩ := h
    cases K <;> simp [ha, hb, hc, groupKinds]

/-- The last key of a kind belongs to the last group. -/
theorem last_of_kind {tpm : Bool} {pre g : List Key} (h : g.map (·.kind) = groupKinds tpm)
    (hk : ∀ k ∈ pre, k.kind ∈ groupKinds tpm) (K : Kind) (x : Key)
    (hx : ((pre ++ g).filter (·.kind = K)).getLast? = some x) : x ∈ g := by
  rw [List.filter_append] at hx
  rcases filter_group h K with ⟨he, hn⟩ | ⟨k, hkg, he⟩
  · rw [he, List.append_nil] at hx
    have hm := List.mem_filter.1 (List.mem_of_getLast? hx)
    have := hk x hm.1
    simp only [decide_eq_true_eq] at hm
    rw [hm.2] at this
    exact absurd this hn
  · rw [he] at hx
    simp only [List.getLast?_append, List.getLast?_singleton, Option.some_or,
      Option.some.injEq] at hx
    rw [← hx]
    exact hkg

theorem inv_expire {tpm : Bool} {G H t now : Nat} {p : List Key × Bool}
    (hi : Inv tpm G H t p.1) (hnow : now ≤ t) (hH : 2 * H ≤ day) :
    Inv tpm G H t (expire now p).1 := by
  rcases expire_cases now p with he | ⟨x, hx, hold⟩
  · rw [he]; exact hi
  · obtain ⟨pre, g, c, hp, hk, hc, ht⟩ := hi.ends
    have hlk := hi.linked
    have hids := hi.ids
    have hkinds := hi.kinds
    rw [hx] at hlk hids hkinds
    refine ⟨?_, fun k hk => hkinds k (List.mem_cons_of_mem _ hk), ?_, ?_⟩
    · cases pre with
      | nil =>
        rw [List.nil_append] at hp
        have hm : x ∈ g := by rw [← hp, hx]; exact List.mem_cons_self
        have := hc x hm
        unfold day hour at *
        omega
      | cons y pre =>
        rw [hp] at hx
        simp only [List.cons_append, List.cons.injEq] at hx
        exact ⟨pre, g, c, hx.2.symm, hk, hc, ht⟩
    · intro K
      have := hlk K
      rw [List.filter_cons] at this
      split at this
      · exact linked_tail this
      · exact this
    · rw [List.map_cons, List.nodup_cons] at hids
      exact hids.2

theorem inv_group {tpm : Bool} {G H now : Nat} {g : List Key} (hg : IsGroup tpm H now g)
    (hid : (g.map (·.id)).Nodup) : Inv tpm G H now g := by
  refine ⟨⟨[], g, now, rfl, hg.1, hg.2, by omega⟩, ?_, ?_, hid⟩
  · intro k hk
    rw [← hg.1]
    exact List.mem_map.2 ⟨k, hk, rfl⟩
  · intro K
    rcases filter_group hg.1 K with ⟨he, -⟩ | ⟨k, -, he⟩ <;> rw [he] <;> trivial

theorem inv_append {tpm : Bool} {G H t now : Nat} {ks g : List Key} (hi : Inv tpm G H t ks)
    (hg : IsGroup tpm H now g) (hid : (g.map (·.id)).Nodup)
    (hnew : ∀ k ∈ g, k.id ∉ ks.map (·.id)) (hgap : now ≤ t + G) :
    Inv tpm G H now (ks ++ g) := by
  obtain ⟨pre, g0, c, rfl, hk0, hc0, ht0⟩ := hi.ends
  refine ⟨⟨pre ++ g0, g, now, rfl, hg.1, hg.2, by omega⟩, ?_, ?_, ?_⟩
  · intro k hk
    rcases List.mem_append.1 hk with hk | hk
    · exact hi.kinds k hk
    · rw [← hg.1]
      exact List.mem_map.2 ⟨k, hk, rfl⟩
  · intro K
    rw [List.filter_append]
    rcases filter_group hg.1 K with ⟨he, -⟩ | ⟨k, hkg, he⟩
    · rw [he, List.append_nil]; exact hi.linked K
    · rw [he]
      refine linked_snoc (hi.linked K) ?_
      intro x hx
      have hx0 := last_of_kind hk0
        (fun y hy => hi.kinds y (List.mem_append_left _ hy)) K x hx
      have h1 := hc0 x hx0
      have h2 := hg.2 k hkg
      omega
  · rw [List.map_append, List.nodup_append]
    refine ⟨hi.ids, hid, ?_⟩
    intro a ha b hb hab
    subst hab
    obtain ⟨k, hkg, rfl⟩ := List.mem_map.1 hb
    exact hnew k hkg ha

theorem inv_later {tpm : Bool} {G H t t' : Nat} {ks : List Key} (hi : Inv tpm G H t ks)
    (a : Key) (hl : ks.getLast? = some a) (ha : t' ≤ a.created + day) : Inv tpm G H t' ks := by
  obtain ⟨pre, g, c, rfl, hk, hc, -⟩ := hi.ends
  refine ⟨⟨pre, g, c, rfl, hk, hc, ?_⟩, hi.kinds, hi.linked, hi.ids⟩
  rw [getLast?_append_right _ (group_ne_nil hk)] at hl
  have := hc a (List.mem_of_getLast? hl)
  omega

/-- The list of keys after a successful rotation. -/
theorem rotate_success {e : Env} {s : State} {tpm : Bool} {H : Nat} (ok : EnvOk tpm H e)
    (hH : H ≤ day) (hsm : s.mem = s.stored ∨ s.mem = []) (hf : rotateFails e s = false) :
    ∃ p, grow e s.stored = some p ∧ rotate e s = ⟨(expire e.now p).1, (expire e.now p).1⟩ := by
  unfold rotateFails at hf
  cases hg : grow e s.stored with
  | none => rw [hg] at hf; simp at hf
  | some p =>
    refine ⟨p, rfl, ?_⟩
    rw [hg] at hf
    simp only [Option.isNone_some, Bool.or_false, Bool.or_eq_false_iff, Bool.not_eq_false',
      Bool.and_eq_false_iff] at hf
    obtain ⟨ho, hcm⟩ := hf
    unfold rotate
    rw [ho, hg]
    simp only [Bool.not_true, Bool.false_eq_true, if_false]
    rw [filter_loads ok.loads]
    by_cases hc : (expire e.now p).2 = true ∨ s.mem.isEmpty = true
    · have hcm' : e.commitOk = true := by
        rcases hcm with h | h
        · rcases hc with h' | h' <;> simp_all
        · exact h
      rw [if_neg (by rcases hc with h | h <;> simp [h]), hcm', if_pos rfl]
    · have h1 : (expire e.now p).2 = false := by
        rcases Bool.eq_false_or_eq_true (expire e.now p).2 with h | h
        · exact absurd (Or.inl h) hc
        · exact h
      have h2 : s.mem.isEmpty = false := by
        rcases Bool.eq_false_or_eq_true s.mem.isEmpty with h | h
        · exact absurd (Or.inr h) hc
        · exact h
      rw [if_pos (by simp [h1, h2])]
      -- nothing changed, so the file holds what is in memory
      have hmem : s.mem = s.stored := by
        rcases hsm with h | h
        · exact h
        · rw [h] at h2; simp at h2
      have hp : (expire e.now p).1 = s.stored := by
        rcases expire_cases e.now p with he | ⟨x, hx, -⟩
        · rw [he] at h1 ⊢
          rcases grow_cases ok hH hg with ⟨-, -, h, -⟩ | ⟨_, _, -, -, -, -, rfl⟩ | ⟨_, -, -, rfl⟩
          · rw [h1] at h; simp at h
          · simp at h1
          · rfl
        · exfalso
          obtain ⟨ks, c⟩ := p
          dsimp only at hx
          cases ks with
          | nil => simp at hx
          | cons k l =>
            unfold expire at h1 hx
            dsimp only at h1 hx
            split at h1
            · simp at h1
            · rename_i hno
              rw [if_neg hno] at hx
              have := congrArg List.length hx
              simp at this
      rw [hp]
      cases s
      simp_all

theorem step_inv {e : Env} {s : State} {tpm : Bool} {G H t : Nat} (ok : EnvOk tpm H e)
    (hfresh : Fresh e s) (hH : 2 * H ≤ day) (hgap : e.now ≤ t + G)
    (hi : s.stored = [] ∨ Inv tpm G H t s.stored) (hsm : s.mem = s.stored ∨ s.mem = [])
    (hf : rotateFails e s = false) :
    Inv tpm G H e.now (rotate e s).mem ∧ (rotate e s).mem = (rotate e s).stored ∧
      ∀ k ∈ s.stored, k ∈ (rotate e s).mem ∨ k.created + 7 * day < e.now := by
  obtain ⟨p, hp, hr⟩ := rotate_success ok (by omega) hsm hf
  have key : Inv tpm G H e.now p.1 ∧ ∀ k ∈ s.stored, k ∈ p.1 := by
    rcases grow_cases ok (by omega) hp with ⟨hnil, h1, -, hg⟩ | ⟨a, g, -, -, hg, h1, rfl⟩ | ⟨a, hl, hn, rfl⟩
    · refine ⟨inv_group hg (hfresh _ (Or.inl h1)).1, ?_⟩
      intro k hk; rw [hnil] at hk; simp at hk
    · obtain ⟨hid, hnew⟩ := hfresh g (Or.inr h1)
      refine ⟨?_, fun k hk => List.mem_append_left _ hk⟩
      rcases hi with h0 | hi
      · dsimp only
        rw [h0, List.nil_append]
        exact inv_group hg hid
      · exact inv_append hi hg hid hnew hgap
    · refine ⟨?_, fun k hk => hk⟩
      rcases hi with h0 | hi
      · rw [h0] at hl; simp at hl
      · exact inv_later hi a hl hn
  rw [hr]
  refine ⟨inv_expire key.1 (Nat.le_refl _) hH, rfl, ?_⟩
  intro k hk
  have hkp := key.2 k hk
  rcases expire_cases e.now p with he | ⟨x, hx, hold⟩
  · left; dsimp only; rw [he]; exact hkp
  · rw [hx] at hkp
    rcases List.mem_cons.1 hkp with rfl | h
    · exact Or.inr hold
    · exact Or.inl h

theorem tstep_inv {tpm : Bool} {G H t t' : Nat} {s s' : State} (hH : 2 * H ≤ day)
    (h : TStep tpm G H (t, s) (t', s')) (hi : Inv tpm G H t s.mem) (hms : s.mem = s.stored) :
    Inv tpm G H t' s'.mem ∧ s'.mem = s'.stored ∧ t ≤ t' ∧
      ∀ k ∈ s.mem, k ∈ s'.mem ∨ k.created + 7 * day < t' := by
  cases h with
  | rotate e t s ok hfr hle hgap hf =>
    have := step_inv ok hfr hH hgap (Or.inr (hms ▸ hi)) (Or.inl hms) hf
    exact ⟨this.1, this.2.1, hle, fun k hk => this.2.2 k (hms ▸ hk)⟩
  | restart e t s s' ok hfr hle hgap hst =>
    unfold start at hst
    dsimp only at hst
    split at hst
    · exact absurd hst (by simp)
    · rename_i hf
      simp only [Option.some.injEq] at hst
      subst hst
      have := step_inv (s := { stored := s.stored, mem := [] }) ok hfr hH hgap
        (Or.inr (hms ▸ hi)) (Or.inr rfl) (by simpa using hf)
      exact ⟨this.1, this.2.1, hle, fun k hk => this.2.2 k (hms ▸ hk)⟩

theorem later_inv {tpm : Bool} {G H : Nat} {p q : Nat × State} (hH : 2 * H ≤ day)
    (h : Later tpm G H p q) (hi : Inv tpm G H p.1 p.2.mem) (hms : p.2.mem = p.2.stored) :
    Inv tpm G H q.1 q.2.mem ∧ q.2.mem = q.2.stored ∧ p.1 ≤ q.1 ∧
      ∀ k ∈ p.2.mem, k ∈ q.2.mem ∨ k.created + 7 * day < q.1 := by
  induction h with
  | refl => exact ⟨hi, hms, Nat.le_refl _, fun k hk => Or.inl hk⟩
  | step q r _ hst ih =>
    obtain ⟨h1, h2, h3, h4⟩ := ih
    obtain ⟨t, s⟩ := q
    obtain ⟨t', s'⟩ := r
    obtain ⟨k1, k2, k3, k4⟩ := tstep_inv hH hst h1 h2
    refine ⟨k1, k2, by dsimp only at *; omega, ?_⟩
    intro k hk
    rcases h4 k hk with h | h
    · exact k4 k h
    · right
      dsimp only at *
      omega

theorem hist_inv {tpm : Bool} {G H t : Nat} {s : State} (hH : 2 * H ≤ day)
    (h : Hist tpm G H t s) : Inv tpm G H t s.mem ∧ s.mem = s.stored := by
  obtain ⟨e, s0, ok, hfr, hst, hl⟩ := h
  have h0 : Inv tpm G H e.now s0.mem ∧ s0.mem = s0.stored := by
    unfold start at hst
    dsimp only at hst
    split at hst
    · exact absurd hst (by simp)
    · rename_i hf
      simp only [Option.some.injEq] at hst
      subst hst
      have := step_inv (t := e.now) (G := G) (s := { stored := [], mem := [] }) ok hfr hH
        (by omega) (Or.inl rfl) (Or.inr rfl) (by simpa using hf)
      exact ⟨this.1, this.2.1⟩
  have := later_inv hH hl h0.1 h0.2
  exact ⟨this.1, this.2.1⟩

/-- C45 (partial: rotations, including process restarts, are never more than `G` apart, with
`G + 3 H` at most 122 hours; see `token_verifiable_violated` for what happens after a longer
downtime). A token signed at time `T` is verifiable with the current key set, whatever rotations
and restarts happen, until `T` plus 20 hours: the key lookup finds the very key that signed it. -/
theorem token_verifiable_partial (tpm : Bool) (G H : Nat) (hGH : G + 3 * H ≤ 122 * hour)
    (hH : 2 * H ≤ day) (t : Nat) (s : State) (hh : Hist tpm G H t s)
    (T : Nat) (hT : T ≤ t + G) (alg : Alg) (k : Key)
    (hsign : createToken tpm alg T s = .signed k)
    (t' : Nat) (s' : State) (hl : Later tpm G H (t, s) (t', s')) (ht' : t' ≤ T + 20 * hour) :
    getKey k.id s' = some k := by
  obtain ⟨hi, hms⟩ := hist_inv hH hh
  unfold createToken at hsign
  cases hsel : select (alg.kind tpm) T s.mem with
  | none => rw [hsel] at hsign; simp at hsign
  | some k' =>
    rw [hsel] at hsign
    simp only [Sign.signed.injEq] at hsign
    subst hsign
    have hrecent : T ≤ k'.created + (26 * hour + G + 3 * H) := by
      refine pick_recent (D := day + G + 3 * H) (by unfold day hour; omega) _ (hi.linked _) ?_ k'
        hsel
      intro x hx
      obtain ⟨pre, g, c, hm, hk, hc, ht⟩ := hi.ends
      have hkinds := hi.kinds
      rw [hm] at hx hkinds
      have hxg := last_of_kind hk (fun y hy => hkinds y (List.mem_append_left _ hy)) _ x hx
      have := hc x hxg
      unfold day hour at *
      omega
    obtain ⟨hi', -, -, hkeep⟩ := later_inv hH hl hi hms
    have hmem : k' ∈ s'.mem := by
      rcases hkeep k' (select_mem hsel).1 with h | h
      · exact h
      · exfalso
        dsimp only at h
        unfold day hour at *
        omega
    unfold getKey
    obtain ⟨l, r, hlr⟩ := List.append_of_mem hmem
    rw [List.find?_eq_some_iff_append]
    refine ⟨by simp, l, r, hlr, ?_⟩
    intro a ha
    have hnd := hi'.ids
    dsimp only at hnd
    rw [hlr, List.map_append, List.map_cons, List.nodup_append] at hnd
    have := hnd.2.2 a.id (List.mem_map.2 ⟨a, ha, rfl⟩) k'.id (by simp)
    simpa using this

theorem Ex.fresh (id now : Nat) (s : State) (h : ∀ k ∈ s.stored, k.id < id) :
    Fresh (Ex.env id now) s := by
  intro g hg
  have : g = Ex.grp id now := by rcases hg with hg | hg <;> · cases hg; rfl
  subst this
  refine ⟨by simp [Ex.grp], ?_⟩
  intro k hk hm
  obtain ⟨x, hx, he⟩ := List.mem_map.1 hm
  have := h x hx
  simp only [Ex.grp, List.mem_cons, List.not_mem_nil, or_false] at hk
  rcases hk with rfl | rfl | rfl <;> dsimp only at he <;> omega

/-- The hypotheses are met by a process that starts, rotates its keys after 25 hours, signs a
token ten hours later, and is restarted, with a rotation, 15 hours after that. -/
example : ∃ t s t' s', Hist false (100 * hour) hour t s ∧
    createToken false .default (35 * hour) s = .signed ⟨5, .ed25519, 25 * hour⟩ ∧
    Later false (100 * hour) hour (t, s) (t', s') ∧ s ≠ s' ∧ t' ≤ 35 * hour + 20 * hour := by
  refine ⟨25 * hour, Ex.s1, 50 * hour,
    rotate (Ex.env 6 (50 * hour)) { stored := Ex.s1.stored, mem := [] }, ?_,
    by decide, ?_, by decide, by decide⟩
  · refine ⟨Ex.env 0 0, Ex.s0, Ex.env_ok 0 0, Ex.fresh 0 0 _ (by simp), by decide, ?_⟩
    refine .step _ _ _ (.refl _) ?_
    exact .rotate (Ex.env 3 (25 * hour)) 0 Ex.s0 (Ex.env_ok _ _) (Ex.fresh 3 _ _ (by decide))
      (by decide) (by decide) (by decide)
  · refine .step _ _ _ (.refl _) ?_
    exact .restart (Ex.env 6 (50 * hour)) (25 * hour) Ex.s1 _ (Ex.env_ok _ _)
      (Ex.fresh 6 _ _ (by decide)) (by decide) (by decide) (by decide)

/-- C45, the missing part. After eight days of downtime the restarted proxy signs a login token
with an eight-day-old key (the new one is not two hours old), and the second hourly rotation
drops that key: the token is refused after two hours instead of twenty. -/
theorem token_verifiable_violated :
    ∃ (G t t' : Nat) (s s' : State) (k : Key), Hist false G hour t s ∧
      createToken false .default t s = .signed k ∧
      Later false G hour (t, s) (t', s') ∧ t' ≤ t + 2 * hour ∧ getKey k.id s' = none := by
  refine ⟨8 * day, 8 * day, 8 * day + 2 * hour,
    rotate (Ex.env 3 (8 * day)) { stored := Ex.s0.stored, mem := [] },
    rotate (Ex.env 6 (8 * day + 2 * hour)) (rotate (Ex.env 6 (8 * day + hour))
      (rotate (Ex.env 3 (8 * day)) { stored := Ex.s0.stored, mem := [] })),
    ⟨2, .ed25519, 0⟩, ?_, by decide, ?_, by decide, by decide⟩
  · refine ⟨Ex.env 0 0, Ex.s0, Ex.env_ok 0 0, Ex.fresh 0 0 _ (by simp), by decide, ?_⟩
    refine .step _ _ _ (.refl _) ?_
    exact .restart (Ex.env 3 (8 * day)) 0 Ex.s0 _ (Ex.env_ok _ _) (Ex.fresh 3 _ _ (by decide))
      (by decide) (by decide) (by decide)
  · refine .step _ (8 * day + hour, rotate (Ex.env 6 (8 * day + hour))
      (rotate (Ex.env 3 (8 * day)) { stored := Ex.s0.stored, mem := [] })) _
      (.step _ _ _ (.refl _) ?_) ?_
    · exact .rotate (Ex.env 6 (8 * day + hour)) _ _ (Ex.env_ok _ _) (Ex.fresh 6 _ _ (by decide))
        (by decide) (by decide) (by decide)
    · exact .rotate (Ex.env 6 (8 * day + 2 * hour)) _ _ (Ex.env_ok _ _)
        (Ex.fresh 6 _ _ (by decide)) (by decide) (by decide) (by decide)

end Verif.Keys
