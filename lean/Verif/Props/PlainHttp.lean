import Verif.Model.PlainHttp
/-!
# C165: the plain HTTP port gives away nothing but answers to challenges and redirects, and cannot be used up
-/
namespace Verif.PlainHttp

namespace Spec

/-- The keys of the cache that hold answers to challenges. All others hold certificates with their private keys, the
account key, and the like. -/
def ForChallenge (k : Str) : Prop := ∃ a, k = a ++ "+http-01".toList

/-- The path of a challenge with this token, RFC 8555 section 8.3. -/
def challenge (token : Str) : Str := "/.well-known/acme-challenge/".toList ++ token

/-- A host name without a port. -/
def Name (h : Str) : Prop := ':' ∉ h ∧ '[' ∉ h ∧ ']' ∉ h

/-- A token, RFC 8555 section 8.1. -/
def Token (t : Str) : Prop := t ≠ [] ∧ '/' ∉ t

end Spec

/-- C165. Whatever is asked for, the answer depends on the challenges only: two managers that agree on them give the same
answers, whatever keys and certificates they have. -/
theorem secrets_safe (m m' : Manager) (ht : m.tokens = m'.tokens) (hc : ∀ k, Spec.ForChallenge k → m.cache k = m'.cache k)
    (r : Req) : serve m r = serve m' r := by
  have : httpToken m r.path = httpToken m' r.path := by
    unfold httpToken
    rw [ht, hc (cacheKey r.path) ⟨_, rfl⟩]
  unfold serve
  rw [this]

theorem prefix_iff (p : Str) : challengePrefix.isPrefixOf p = true ↔ ∃ t, p = Spec.challenge t := by
  rw [List.isPrefixOf_iff_prefix]
  unfold Spec.challenge challengePrefix
  constructor
  · rintro ⟨t, h⟩
    exact ⟨t, h.symm⟩
  · rintro ⟨t, h⟩
    exact ⟨t, h.symm⟩

/-- C165. Only paths of challenges are answered with data, and this data belongs to a challenge. -/
theorem data_only (m : Manager) (r : Req) (d : Str) (h : serve m r = .data d) :
    (∃ t, r.path = Spec.challenge t) ∧ (m.tokens r.path = some d ∨ ∃ k, Spec.ForChallenge k ∧ m.cache k = some d) := by
  unfold serve at h
  split at h <;> rename_i hp
  · refine ⟨(prefix_iff _).1 hp, ?_⟩
    split at h <;> rename_i ht
    · cases h
      unfold httpToken at ht
      split at ht <;> rename_i hd
      · cases ht
        exact .inl hd
      · exact .inr ⟨_, ⟨_, rfl⟩, ht⟩
    · cases h
  · unfold redirect at h
    split at h <;> cases h

theorem dropWhile_head {l : Str} {c : Char} (h : c ≠ '/') : (c :: l).dropWhile (· = '/') = c :: l := by
  simp [h]

theorem takeWhile_all {l r : Str} (h : '/' ∉ l) : (l ++ '/' :: r).takeWhile (· ≠ '/') = l := by
  induction l with
  | nil => simp
  | cons c l ih =>
    have hc : c ≠ '/' := fun e => h (by simp [e])
    have hl : '/' ∉ l := fun e => h (List.mem_cons_of_mem _ e)
    simp only [List.cons_append]
    rw [List.takeWhile_cons_of_pos (by simp [hc]), ih hl]

theorem base_challenge {t : Str} (h : Spec.Token t) : base (Spec.challenge t) = t := by
  obtain ⟨h1, h2⟩ := h
  have hr : (Spec.challenge t).reverse = t.reverse ++ '/' :: "/.well-known/acme-challenge".toList.reverse := by
    unfold Spec.challenge
    have : "/.well-known/acme-challenge/".toList = "/.well-known/acme-challenge".toList ++ ['/'] := by decide +kernel
    rw [this]
    generalize "/.well-known/acme-challenge".toList = z
    simp
  have hne : Spec.challenge t ≠ [] := by
    intro e
    have h0 := congrArg List.length e
    rw [← List.length_reverse, hr] at h0
    exact absurd h0 (by simp)
  unfold base
  rw [if_neg hne]
  dsimp only
  rw [hr]
  generalize "/.well-known/acme-challenge".toList.reverse = z
  have hm : '/' ∉ t.reverse := by simpa using h2
  cases htr : t.reverse with
  | nil =>
    have : t = [] := by simpa using htr
    exact absurd this h1
  | cons c l =>
    rw [htr] at hm
    have hc : c ≠ '/' := fun e => hm (by simp [e])
    rw [show (c :: l) ++ '/' :: z = c :: (l ++ '/' :: z) from rfl, dropWhile_head hc, List.reverse_reverse,
      show c :: (l ++ '/' :: z) = (c :: l) ++ '/' :: z from rfl, takeWhile_all hm, ← htr, List.reverse_reverse, if_neg h1]

/-- C165. Challenges are answered, whether by this process or, with a shared cache, by another one. -/
theorem challenge_answered (m : Manager) (r : Req) (t d : Str) (ht : Spec.Token t) (hp : r.path = Spec.challenge t)
    (h : m.tokens r.path = some d ∨ m.tokens r.path = none ∧ m.cache (t ++ "+http-01".toList) = some d) :
    serve m r = .data d := by
  unfold serve
  rw [if_pos ((prefix_iff _).2 ⟨t, hp⟩)]
  have : httpToken m r.path = some d := by
    unfold httpToken
    rcases h with h | ⟨h1, h2⟩
    · rw [h]
    · rw [h1]
      show m.cache (cacheKey r.path) = some d
      unfold cacheKey
      rw [hp, base_challenge ht]
      exact h2
  rw [this]

/-- C165. Everything else is redirected or refused. -/
theorem others (m : Manager) (r : Req) (hp : ∀ t, r.path ≠ Spec.challenge t) :
    (r.method = "GET" ∨ r.method = "HEAD" → serve m r = .redirect ("https://".toList ++ stripPort r.host ++ r.uri)) ∧
    (r.method ≠ "GET" → r.method ≠ "HEAD" → serve m r = .badRequest) := by
  have h : ¬ challengePrefix.isPrefixOf r.path = true := fun e => by
    obtain ⟨t, h⟩ := (prefix_iff _).1 e
    exact hp t h
  unfold serve
  rw [if_neg h]
  unfold redirect
  refine ⟨fun hm => ?_, fun h1 h2 => ?_⟩
  · rw [if_neg]
    rintro ⟨h1, h2⟩
    rcases hm with hm | hm
    · exact h1 hm
    · exact h2 hm
  · rw [if_pos ⟨h1, h2⟩]

theorem no_colon_none {h : Str} (hc : ':' ∉ h) : Discovery.splitHostPort h = none := by
  unfold Discovery.splitHostPort Discovery.cutLastColon
  rw [if_neg hc]

/-- C165. The redirect leads to the same host, -/
theorem same_host (h : Str) (hn : Spec.Name h) : stripPort h = h := by
  unfold stripPort
  rw [no_colon_none hn.1]

theorem takeWhile_colon {l r : Str} (h : ':' ∉ l) : (l ++ ':' :: r).takeWhile (· ≠ ':') = l := by
  induction l with
  | nil => simp
  | cons c l ih =>
    have hc : c ≠ ':' := fun e => h (by simp [e])
    rw [List.cons_append, List.takeWhile_cons_of_pos (by simp [hc]), ih (fun e => h (List.mem_cons_of_mem _ e))]

theorem dropWhile_colon {l r : Str} (h : ':' ∉ l) : (l ++ ':' :: r).dropWhile (· ≠ ':') = ':' :: r := by
  induction l with
  | nil => simp
  | cons c l ih =>
    have hc : c ≠ ':' := fun e => h (by simp [e])
    rw [List.cons_append, List.dropWhile_cons_of_pos (by simp [hc]), ih (fun e => h (List.mem_cons_of_mem _ e))]

/-- C165. and, if the client used a port, to port 443. -/
theorem same_host_port (h p : Str) (hn : Spec.Name h) (hp : Spec.Name p) : stripPort (h ++ ':' :: p) = h ++ ":443".toList := by
  have hcut : Discovery.cutLastColon (h ++ ':' :: p) = some (h, p) := by
    unfold Discovery.cutLastColon
    rw [if_pos (by simp)]
    have hr : (h ++ ':' :: p).reverse = p.reverse ++ ':' :: h.reverse := by simp
    have hm : ':' ∉ p.reverse := by simpa using hp.1
    rw [hr, dropWhile_colon hm, takeWhile_colon hm]
    simp
  have hs : Discovery.splitHostPort (h ++ ':' :: p) = some (h, p) := by
    unfold Discovery.splitHostPort
    rw [hcut]
    dsimp only
    split <;> rename_i rest heq
    · exfalso
      cases h with
      | nil => simp at heq
      | cons c l =>
        simp at heq
        exact hn.2.1 (by simp [heq.1])
    · rw [if_neg hn.1, if_neg]
      obtain ⟨-, a, b⟩ := hn
      obtain ⟨-, c, d⟩ := hp
      simp [a, b, c, d]
  unfold stripPort
  rw [hs]
  dsimp only
  unfold joinHostPort
  rw [if_neg hn.1]
  rfl

/-! ## Connections -/

/-- C165. A client that sends its request is served and gone. -/
theorem answered_gone (to : Timeouts) (c : Conn) (d t : Nat) (h : c.complete = some d) (ht : d ≤ t) : held to t c = false := by
  unfold held
  rw [h]
  simp
  intro _ h1
  omega

/-- C165, violated: a client that sends nothing is never disconnected. -/
theorem idle_violated (c : Conn) (h : c.complete = none) (t : Nat) (ht : c.opened ≤ t) : held timeouts t c = true := by
  unfold held
  rw [h]
  simp [timeouts, Timeouts.patience, ht]

/-- C165, violated: there is no limit to the number of connections at a time, whatever `MaxOpen` is. -/
theorem unlimited_violated (maxOpen : Nat) (t : Nat) : ∃ cs : List Conn, maxOpen < load timeouts t cs ∧
    ∀ t', t ≤ t' → maxOpen < load timeouts t' cs := by
  have h : ∀ t', t ≤ t' → maxOpen < load timeouts t' (List.replicate (maxOpen + 1) ⟨t, none⟩) := by
    intro t' ht
    unfold load
    rw [List.countP_replicate, if_pos (idle_violated ⟨t, none⟩ rfl t' ht)]
    omega
  exact ⟨_, h t (Nat.le_refl _), h⟩

/-- What a timeout would do: with one, every connection is gone after it. -/
theorem timeout_helps (to : Timeouts) (p : Nat) (hp : to.patience = some p) (c : Conn) (t : Nat) (ht : c.opened + p ≤ t) :
    held to t c = false := by
  unfold held
  rw [hp]
  simp
  intro _ _
  omega

/-! ## Examples -/

example : Spec.Token "abc_DEF-1".toList := by constructor <;> decide
example : Spec.Name "www.example.com".toList := by unfold Spec.Name; decide
example : serve ⟨fun _ => none, fun k => if k = "abc+http-01".toList then some "x".toList else some "secret".toList⟩
    ⟨"GET", "a".toList, "/.well-known/acme-challenge/abc".toList, "/".toList⟩ = .data "x".toList := by decide +kernel
example : serve ⟨fun _ => none, fun _ => some "secret".toList⟩ ⟨"GET", "a.b:80".toList, "/x".toList, "/x?y=z".toList⟩ =
    .redirect "https://a.b:443/x?y=z".toList := by decide +kernel
example : stripPort "[::1]:80".toList = "[::1]:443".toList := by decide +kernel
example : ∀ t, "/x".toList ≠ Spec.challenge t := by
  intro t e
  have h := congrArg (List.drop 1) e
  have h' := congrArg List.head? h
  revert h'
  show ¬ some 'x' = some '.'
  decide
example : held timeouts 1000000 ⟨0, none⟩ = true := by decide
example : Timeouts.patience ⟨30, 0⟩ = some 30 := rfl

end Verif.PlainHttp
