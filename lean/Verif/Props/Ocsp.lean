import Verif.Model.Ocsp

/-!
# C51-C53, C87, C88: OCSP
-/

namespace Verif.Ocsp

/-! ## Cache -/

theorem Cache.get_add (c : Cache) (k k' : Nat) (v : Option Resp) :
    (Cache.add c k v).get k' = if k' = k then some v else c.get k' := by
  unfold Cache.add Cache.get
  rw [List.lookup_cons]
  by_cases h : k' = k
  · subst h; simp
  · rw [if_neg h]
    have : (k' == k) = false := by simpa using h
    rw [this]
    dsimp only
    induction c with
    | nil => rfl
    | cons p c ih =>
      obtain ⟨a, b⟩ := p
      by_cases ha : a = k
      · subst ha
        rw [List.filter_cons_of_neg (by simp), List.lookup_cons, this]
        exact ih
      · rw [List.filter_cons_of_pos (by simpa using ha), List.lookup_cons, List.lookup_cons, ih]

/-! ## C51 -/

/-- The answers, in chronological order, with which a chain counts as good: for each certificate
that names OCSP servers, a response of status good (from a server, or cached and unexpired), or
an internal error. -/
inductive Spec.Vouched : List Cert → List Event → Prop where
  | nil : Vouched [] []
  | skip {c rest evs} : c.servers = [] → Vouched rest evs → Vouched (c :: rest) evs
  | cached {c rest evs} (r : Resp) (t : Nat) : r.status = .good → t < r.next →
      Vouched rest evs →
      Vouched (c :: rest) (.cached c ((rest.head?).getD c) r t :: evs)
  | fetched {c rest evs} (srv : Nat) (r : Resp) (t : Nat) : srv ∈ c.servers →
      r.status = .good → Vouched rest evs →
      Vouched (c :: rest) (.fetched c ((rest.head?).getD c) srv r t :: evs)
  | internal {c rest evs} : Vouched rest evs →
      Vouched (c :: rest) (.failed c ((rest.head?).getD c) .internal :: evs)

/-- The event is an answer, not a failure to get one. -/
def Spec.answered : Event → Prop
  | .cached .. => True
  | .fetched .. => True
  | _ => False

theorem issuerOf_eq (c : Cert) (rest : List Cert) : issuerOf c rest = (rest.head?).getD c := by
  cases rest <;> rfl

/-- The last of the servers' outcomes that count. -/
theorem fetchLoop_mem (env : Env) (i : Nat) (cert issuer : Cert) (ss : List Nat)
    (last : Option (Nat × Except Err Resp)) (srv : Nat) (x : Except Err Resp)
    (h : fetchLoop env i cert issuer ss last = some (srv, x)) :
    last = some (srv, x) ∨ (srv ∈ ss ∧ env.fetch i cert issuer srv = x) := by
  induction ss generalizing last with
  | nil => exact Or.inl h
  | cons s ss ih =>
    unfold fetchLoop at h
    cases hf : env.fetch i cert issuer s with
    | error e =>
      rw [hf] at h
      rcases ih _ h with h1 | ⟨h1, h2⟩
      · simp only [Option.some.injEq, Prod.mk.injEq] at h1
        obtain ⟨rfl, rfl⟩ := h1
        exact Or.inr ⟨List.mem_cons_self, hf⟩
      · exact Or.inr ⟨List.mem_cons_of_mem _ h1, h2⟩
    | ok r =>
      rw [hf] at h
      dsimp only at h
      split at h
      · rcases ih _ h with h1 | ⟨h1, h2⟩
        · simp only [Option.some.injEq, Prod.mk.injEq] at h1
          obtain ⟨rfl, rfl⟩ := h1
          exact Or.inr ⟨List.mem_cons_self, hf⟩
        · exact Or.inr ⟨List.mem_cons_of_mem _ h1, h2⟩
      · simp only [Option.some.injEq, Prod.mk.injEq] at h
        obtain ⟨rfl, rfl⟩ := h
        exact Or.inr ⟨List.mem_cons_self, hf⟩

theorem fetchLoop_none (env : Env) (i : Nat) (cert issuer : Cert) (ss : List Nat)
    (last : Option (Nat × Except Err Resp)) :
    fetchLoop env i cert issuer ss last = none ↔ ss = [] ∧ last = none := by
  induction ss generalizing last with
  | nil => simp [fetchLoop]
  | cons s ss ih =>
    unfold fetchLoop
    cases env.fetch i cert issuer s with
    | error e => simp [ih]
    | ok r =>
      dsimp only
      split
      · simp [ih]
      · simp

/-- A definite answer. -/
def Spec.definite : Except Err Resp → Prop
  | .ok r => r.status ≠ .unknown
  | .error _ => False

/-- The servers are asked in order; the first definite answer (not an error, not unknown) wins
and the later servers are not asked; without any, the last server's outcome is the result. -/
theorem fetch_first (env : Env) (i : Nat) (cert issuer : Cert) (ss : List Nat)
    (last : Option (Nat × Except Err Resp)) :
    (∃ a s b, ss = a ++ s :: b ∧ Spec.definite (env.fetch i cert issuer s) ∧
      (∀ x ∈ a, ¬ Spec.definite (env.fetch i cert issuer x)) ∧
      fetchLoop env i cert issuer ss last = some (s, env.fetch i cert issuer s)) ∨
    ((∀ x ∈ ss, ¬ Spec.definite (env.fetch i cert issuer x)) ∧
      fetchLoop env i cert issuer ss last =
        match ss.getLast? with
        | none => last
        | some s => some (s, env.fetch i cert issuer s)) := by
  induction ss generalizing last with
  | nil => exact Or.inr ⟨by simp, rfl⟩
  | cons s ss ih =>
    by_cases hd : Spec.definite (env.fetch i cert issuer s)
    · left
      refine ⟨[], s, ss, rfl, hd, by simp, ?_⟩
      unfold fetchLoop
      cases hf : env.fetch i cert issuer s with
      | error e => rw [hf] at hd; exact absurd hd id
      | ok r =>
        rw [hf] at hd
        exact if_neg hd
    · have hstep : fetchLoop env i cert issuer (s :: ss) last =
          fetchLoop env i cert issuer ss (some (s, env.fetch i cert issuer s)) := by
        rw [fetchLoop]
        cases hf : env.fetch i cert issuer s with
        | error e => rfl
        | ok r =>
          rw [hf] at hd
          have hu : r.status = .unknown := Decidable.not_not.1 hd
          exact if_pos hu
      rw [hstep]
      rcases ih (some (s, env.fetch i cert issuer s)) with ⟨a, x, b, rfl, h1, h2, h3⟩ | ⟨h1, h2⟩
      · left
        refine ⟨s :: a, x, b, rfl, h1, ?_, h3⟩
        intro y hy
        rcases List.mem_cons.1 hy with rfl | hy
        · exact hd
        · exact h2 y hy
      · right
        refine ⟨?_, ?_⟩
        · intro y hy
          rcases List.mem_cons.1 hy with rfl | hy
          · exact hd
          · exact h1 y hy
        · rw [h2]
          cases ss with
          | nil => rfl
          | cons x xs => rw [List.getLast?_cons_cons]; cases hx : (x :: xs).getLast? with
            | none => simp at hx
            | some y => rfl

/-- How `response` can end. -/
inductive RespEnds (env : Env) (s : State) (cert issuer : Cert) (margin : Nat) :
    Res × State → Prop where
  | hit (r : Resp) :
      (env.other s.tick s.cache).get cert.raw = some (some r) →
      env.now s.tick + margin < r.next →
      RespEnds env s cert issuer margin
        (.resp r, ⟨env.other s.tick s.cache, s.tick + 1,
          .cached cert issuer r (env.now s.tick) :: s.log⟩)
  | fetched (srv : Nat) (r : Resp) :
      srv ∈ cert.servers → env.fetch s.tick cert issuer srv = .ok r →
      (∀ q, (env.other s.tick s.cache).get cert.raw = some q →
        ∃ q', q = some q' ∧ q'.next ≤ env.now s.tick + margin) →
      RespEnds env s cert issuer margin
        (.resp r, ⟨(env.other (s.tick + 1) (env.other s.tick s.cache)).add cert.raw (some r),
          s.tick + 2, .fetched cert issuer srv r (env.now (s.tick + 1)) :: s.log⟩)
  | failed (e : Err) :
      (∀ q, (env.other s.tick s.cache).get cert.raw = some q →
        ∃ q', q = some q' ∧ q'.next ≤ env.now s.tick + margin) →
      RespEnds env s cert issuer margin
        (.err e, ⟨env.other s.tick s.cache, s.tick + 1, .failed cert issuer e :: s.log⟩)
  | nilResp : cert.servers = [] →
      (∀ q, (env.other s.tick s.cache).get cert.raw = some q →
        ∃ q', q = some q' ∧ q'.next ≤ env.now s.tick + margin) →
      RespEnds env s cert issuer margin
        (.nilResp, ⟨(env.other (s.tick + 1) (env.other s.tick s.cache)).add cert.raw none,
          s.tick + 2, s.log⟩)
  | panic : (env.other s.tick s.cache).get cert.raw = some none →
      RespEnds env s cert issuer margin
        (.panic, ⟨env.other s.tick s.cache, s.tick + 1, s.log⟩)

theorem response_ends (env : Env) (s : State) (cert issuer : Cert) (margin : Nat) :
    RespEnds env s cert issuer margin (response env s cert issuer margin) := by
  unfold response
  dsimp only
  have hmiss : (∀ q, (env.other s.tick s.cache).get cert.raw = some q →
        ∃ q', q = some q' ∧ q'.next ≤ env.now s.tick + margin) →
      RespEnds env s cert issuer margin
        (if !env.create cert issuer then
          (Res.err .internal, (⟨env.other s.tick s.cache, s.tick + 1,
            .failed cert issuer .internal :: s.log⟩ : State))
        else
          match fetchLoop env s.tick cert issuer cert.servers none with
          | none => (.nilResp, ⟨(env.other (s.tick + 1) (env.other s.tick s.cache)).add
              cert.raw none, s.tick + 1 + 1, s.log⟩)
          | some (_, .error e) => (.err e, ⟨env.other s.tick s.cache, s.tick + 1,
              .failed cert issuer e :: s.log⟩)
          | some (srv, .ok r) => (.resp r,
              ⟨(env.other (s.tick + 1) (env.other s.tick s.cache)).add cert.raw (some r),
                s.tick + 1 + 1, .fetched cert issuer srv r (env.now (s.tick + 1)) :: s.log⟩)) := by
    intro hq
    split
    · exact .failed .internal hq
    · cases hf : fetchLoop env s.tick cert issuer cert.servers none with
      | none =>
        rw [fetchLoop_none] at hf
        exact .nilResp hf.1 hq
      | some p =>
        obtain ⟨srv, x⟩ := p
        cases x with
        | error e => exact .failed e hq
        | ok r =>
          rcases fetchLoop_mem _ _ _ _ _ _ _ _ hf with h1 | ⟨h1, h2⟩
          · cases h1
          · exact .fetched srv r h1 h2 hq
  cases hg : (env.other s.tick s.cache).get cert.raw with
  | none => exact hmiss (fun q hq => by rw [hg] at hq; cases hq)
  | some o =>
    cases o with
    | none => exact .panic hg
    | some r =>
      dsimp only
      split
      · rename_i ht; exact .hit r hg ht
      · rename_i ht
        refine hmiss (fun q hq => ?_)
        rw [hg] at hq
        cases hq
        exact ⟨r, rfl, Nat.le_of_not_lt ht⟩

theorem checkChain_vouched (env : Env) (ch : List Cert) : ∀ (s : State) (g g' : Bool) (s' : State),
    checkChain env s ch g = (.good g', s') →
    ∃ evs, s'.log = evs.reverse ++ s.log ∧ Spec.Vouched ch evs ∧
      (g' = true → g = true ∨ ∃ e ∈ evs, Spec.answered e) := by
  induction ch with
  | nil =>
    intro s g g' s' h
    simp only [checkChain, Prod.mk.injEq] at h
    obtain ⟨hg, rfl⟩ := h
    injection hg with hg
    exact ⟨[], rfl, .nil, fun h => Or.inl (hg.trans h)⟩
  | cons cert rest ih =>
    intro s g g' s' h
    unfold checkChain at h
    split at h
    · rename_i hs
      obtain ⟨evs, h1, h2, h3⟩ := ih _ _ _ _ h
      exact ⟨evs, h1, .skip hs h2, h3⟩
    · have he := response_ends env s cert (issuerOf cert rest) 0
      revert he h
      generalize response env s cert (issuerOf cert rest) 0 = x
      intro h he
      rw [issuerOf_eq] at he
      cases he with
      | hit r hg ht =>
        dsimp only at h
        split at h
        · cases h
        · cases h
        · rename_i hgood
          obtain ⟨evs, h1, h2, -⟩ := ih _ _ _ _ h
          exact ⟨_, by rw [h1]; simp, .cached r _ hgood ht h2,
            fun _ => Or.inr ⟨_, List.mem_cons_self, trivial⟩⟩
        · cases h
      | fetched srv r hm hf hq =>
        dsimp only at h
        split at h
        · cases h
        · cases h
        · rename_i hgood
          obtain ⟨evs, h1, h2, -⟩ := ih _ _ _ _ h
          exact ⟨_ :: evs, by rw [h1]; simp; rfl, .fetched srv r _ hm hgood h2,
            fun _ => Or.inr ⟨_, List.mem_cons_self, trivial⟩⟩
        · cases h
      | failed e hq =>
        cases e with
        | internal =>
          obtain ⟨evs, h1, h2, h3⟩ := ih _ _ _ _ h
          refine ⟨_, by rw [h1]; simp, .internal h2, fun hg => (h3 hg).imp id ?_⟩
          rintro ⟨e, he, ha⟩
          exact ⟨e, List.mem_cons_of_mem _ he, ha⟩
        | revoked => cases h
        | unknown => cases h
        | protocol => cases h
      | nilResp => cases h
      | panic => cases h

theorem checkChains_vouched (env : Env) (chs : List (List Cert)) :
    ∀ (s : State) (last : Option Err) (s' : State),
    checkChains env s chs last = (.accept, s') →
    (chs = [] ∧ last = none) ∨
    ∃ before ch after evs mid, chs = before ++ ch :: after ∧ s'.log = evs.reverse ++ mid ∧
      Spec.Vouched ch evs ∧ (before = [] ∧ last = none ∨ ∃ e ∈ evs, Spec.answered e) := by
  induction chs with
  | nil =>
    intro s last s' h
    left
    refine ⟨rfl, ?_⟩
    unfold checkChains at h
    cases last with
    | none => rfl
    | some e => cases h
  | cons ch chs ih =>
    intro s last s' h
    right
    unfold checkChains at h
    cases hc : checkChain env s ch false with
    | mk r s1 =>
      rw [hc] at h
      cases r with
      | panic => cases h
      | bad e =>
        rcases ih _ _ _ h with ⟨-, h2⟩ | ⟨before, ch', after, evs, mid, rfl, h1, h2, h3⟩
        · cases h2
        · refine ⟨ch :: before, ch', after, evs, mid, rfl, h1, h2, Or.inr ?_⟩
          rcases h3 with ⟨-, h3⟩ | h3
          · cases h3
          · exact h3
      | good g =>
        obtain ⟨evs, h1, h2, h3⟩ := checkChain_vouched env ch _ _ _ _ hc
        cases g with
        | true =>
          simp only [Prod.mk.injEq, true_and] at h
          subst h
          refine ⟨[], ch, chs, evs, s.log, rfl, h1, h2, Or.inr ?_⟩
          rcases h3 rfl with h3 | h3
          · cases h3
          · exact h3
        | false =>
          simp only [Prod.mk.injEq] at h
          obtain ⟨h, rfl⟩ := h
          refine ⟨[], ch, chs, evs, s.log, rfl, h1, h2, Or.inl ⟨rfl, ?_⟩⟩
          cases last with
          | none => rfl
          | some e => cases h

/-- C51. When OCSP verification accepts a non-empty list of chains, there is a chain all of whose
certificates that name OCSP servers were answered good during this very verification (by a server,
or by an unexpired cached response) or failed with an internal error: the answers about this chain
are the last ones obtained. When chains before it were refused, at least one of these answers was
good: a chain about which nothing could be found out does not make up for a refused one. In
particular a chain with a certificate answered revoked or unknown
is never what makes verification succeed. -/
theorem verify_accepts (env : Env) (s s' : State) (chains : List (List Cert)) (stapled : Bool)
    (hne : chains ≠ []) (h : verifyChains env s chains stapled = (.accept, s')) :
    ∃ before ch after evs mid, chains = before ++ ch :: after ∧ s'.log = evs.reverse ++ mid ∧
      Spec.Vouched ch evs ∧ (before = [] ∨ ∃ e ∈ evs, Spec.answered e) := by
  unfold verifyChains at h
  have key : ∀ s0, checkChains env s0 chains none = (.accept, s') →
      ∃ before ch after evs mid, chains = before ++ ch :: after ∧ s'.log = evs.reverse ++ mid ∧
        Spec.Vouched ch evs ∧ (before = [] ∨ ∃ e ∈ evs, Spec.answered e) := by
    intro s0 h
    rcases checkChains_vouched env chains _ _ _ h with ⟨h1, -⟩ |
      ⟨before, ch, after, evs, mid, h1, h2, h3, h4⟩
    · exact absurd h1 hne
    · exact ⟨before, ch, after, evs, mid, h1, h2, h3, h4.imp And.left id⟩
  split at h
  · cases hu : useStaple env s chains with
    | mk v s1 =>
      rw [hu] at h
      cases v with
      | accept => exact key _ h
      | refuse e => cases h
      | panic => cases h
  · exact key _ h

/-- What an accepted chain's answers say about each of its certificates. -/
theorem Spec.Vouched.mem {ch : List Cert} {evs : List Event} (h : Spec.Vouched ch evs)
    {c : Cert} (hc : c ∈ ch) (hs : c.servers ≠ []) :
    ∃ issuer, (∃ r t, Event.cached c issuer r t ∈ evs ∧ r.status = .good ∧ t < r.next) ∨
      (∃ srv r t, Event.fetched c issuer srv r t ∈ evs ∧ r.status = .good ∧ srv ∈ c.servers) ∨
      Event.failed c issuer .internal ∈ evs := by
  induction h with
  | nil => cases hc
  | @skip c' rest evs h1 _ ih =>
    rcases List.mem_cons.1 hc with rfl | hc
    · exact absurd h1 hs
    · exact ih hc
  | @cached c' rest evs r t h1 h2 _ ih =>
    rcases List.mem_cons.1 hc with rfl | hc
    · exact ⟨_, Or.inl ⟨r, t, List.mem_cons_self, h1, h2⟩⟩
    · obtain ⟨i, ⟨r, t, a, b⟩ | ⟨srv, r, t, a, b⟩ | a⟩ := ih hc
      · exact ⟨i, Or.inl ⟨r, t, List.mem_cons_of_mem _ a, b⟩⟩
      · exact ⟨i, Or.inr (Or.inl ⟨srv, r, t, List.mem_cons_of_mem _ a, b⟩)⟩
      · exact ⟨i, Or.inr (Or.inr (List.mem_cons_of_mem _ a))⟩
  | @fetched c' rest evs srv r t h0 h1 _ ih =>
    rcases List.mem_cons.1 hc with rfl | hc
    · exact ⟨_, Or.inr (Or.inl ⟨srv, r, t, List.mem_cons_self, h1, h0⟩)⟩
    · obtain ⟨i, ⟨r, t, a, b⟩ | ⟨srv, r, t, a, b⟩ | a⟩ := ih hc
      · exact ⟨i, Or.inl ⟨r, t, List.mem_cons_of_mem _ a, b⟩⟩
      · exact ⟨i, Or.inr (Or.inl ⟨srv, r, t, List.mem_cons_of_mem _ a, b⟩)⟩
      · exact ⟨i, Or.inr (Or.inr (List.mem_cons_of_mem _ a))⟩
  | @internal c' rest evs _ ih =>
    rcases List.mem_cons.1 hc with rfl | hc
    · exact ⟨_, Or.inr (Or.inr List.mem_cons_self)⟩
    · obtain ⟨i, ⟨r, t, a, b⟩ | ⟨srv, r, t, a, b⟩ | a⟩ := ih hc
      · exact ⟨i, Or.inl ⟨r, t, List.mem_cons_of_mem _ a, b⟩⟩
      · exact ⟨i, Or.inr (Or.inl ⟨srv, r, t, List.mem_cons_of_mem _ a, b⟩)⟩
      · exact ⟨i, Or.inr (Or.inr (List.mem_cons_of_mem _ a))⟩

namespace Ex

def leaf : Cert := ⟨1, 100, [7, 8]⟩
def inter : Cert := ⟨2, 200, [9]⟩
def root : Cert := ⟨3, 300, []⟩
def good (c : Cert) : Resp := ⟨c.serial, .good, 1000, 0⟩

/-- Server 7 is down, 8 says good, 9 says good. -/
def env : Env :=
  { now := fun i => i
    other := fun _ c => c
    create := fun _ _ => true
    fetch := fun _ c _ s => if s = 7 then .error .protocol else .ok (good c)
    staple := fun c _ => some (good c) }

/-- Server 9 says revoked. -/
def env2 : Env :=
  { env with
    fetch := fun _ c _ s =>
      if s = 9 then .ok { good c with status := .revoked } else .ok (good c) }

def s0 : State := ⟨[], 0, []⟩

end Ex

example : (verifyChains Ex.env Ex.s0 [[Ex.leaf, Ex.inter, Ex.root]] false).1 = .accept ∧
    (verifyChains Ex.env2 Ex.s0 [[Ex.leaf, Ex.inter, Ex.root]] false).1 = .refuse .revoked := by
  decide

/-! ## C52 -/

/-- The entry of `x` in the cache is the revoked response `r`, nobody else drops it, and it does
not expire while the verification runs. -/
structure Spec.KnownRevoked (env : Env) (s : State) (x : Cert) (r : Resp) : Prop where
  revoked : r.status = .revoked
  cached : s.cache.get x.raw = some (some r)
  kept : ∀ i (c : Cache), c.get x.raw = some (some r) →
    (env.other i c).get x.raw = some (some r)
  current : ∀ i, env.now i < r.next

theorem response_known {env : Env} {s : State} {x : Cert} {r : Resp}
    (h : Spec.KnownRevoked env s x r) (cert issuer : Cert) :
    Spec.KnownRevoked env (response env s cert issuer 0).2 x r ∧
      (cert.raw = x.raw → (response env s cert issuer 0).1 = .resp r) := by
  have he := response_ends env s cert issuer 0
  revert he
  generalize response env s cert issuer 0 = y
  intro he
  have k1 := h.kept s.tick _ h.cached
  have k2 := h.kept (s.tick + 1) _ k1
  cases he with
  | hit q hg ht =>
    refine ⟨⟨h.revoked, k1, h.kept, h.current⟩, ?_⟩
    intro hr
    rw [hr, k1] at hg
    cases hg
    rfl
  | fetched srv q hm hf hq =>
    have hne : cert.raw ≠ x.raw := by
      intro hr
      rw [hr] at hq
      obtain ⟨q', e1, e2⟩ := hq _ k1
      cases e1
      have := h.current s.tick
      omega
    refine ⟨⟨h.revoked, ?_, h.kept, h.current⟩, fun hr => absurd hr hne⟩
    rw [Cache.get_add, if_neg (Ne.symm hne)]
    exact k2
  | failed e hq =>
    have hne : cert.raw ≠ x.raw := by
      intro hr
      rw [hr] at hq
      obtain ⟨q', e1, e2⟩ := hq _ k1
      cases e1
      have := h.current s.tick
      omega
    exact ⟨⟨h.revoked, k1, h.kept, h.current⟩, fun hr => absurd hr hne⟩
  | nilResp hs hq =>
    have hne : cert.raw ≠ x.raw := by
      intro hr
      rw [hr] at hq
      obtain ⟨q', e1, e2⟩ := hq _ k1
      cases e1
      have := h.current s.tick
      omega
    refine ⟨⟨h.revoked, ?_, h.kept, h.current⟩, fun hr => absurd hr hne⟩
    rw [Cache.get_add, if_neg (Ne.symm hne)]
    exact k2
  | panic hg =>
    refine ⟨⟨h.revoked, k1, h.kept, h.current⟩, ?_⟩
    intro hr
    rw [hr, k1] at hg
    cases hg

theorem checkChain_known {env : Env} {x : Cert} {r : Resp} (ch : List Cert) :
    ∀ (s : State) (g : Bool), Spec.KnownRevoked env s x r →
    Spec.KnownRevoked env (checkChain env s ch g).2 x r ∧
      ∀ g' s', checkChain env s ch g = (.good g', s') →
        ∀ c ∈ ch, c.servers ≠ [] → c.raw ≠ x.raw := by
  induction ch with
  | nil => intro s g h; exact ⟨h, fun g' s' _ c hc => by cases hc⟩
  | cons cert rest ih =>
    intro s g h
    unfold checkChain
    split
    · rename_i hs
      obtain ⟨h1, h2⟩ := ih s g h
      refine ⟨h1, fun g' s' hg c hc hcs => ?_⟩
      rcases List.mem_cons.1 hc with rfl | hc
      · exact absurd hs hcs
      · exact h2 g' s' hg c hc hcs
    · obtain ⟨k1, k2⟩ := response_known h cert (issuerOf cert rest)
      revert k1 k2
      generalize response env s cert (issuerOf cert rest) 0 = y
      obtain ⟨res, s1⟩ := y
      intro k1 k2
      dsimp only at k1 k2
      cases res with
      | nilResp => exact ⟨k1, fun g' s' hg => by cases hg⟩
      | panic => exact ⟨k1, fun g' s' hg => by cases hg⟩
      | err e =>
        have hne : cert.raw ≠ x.raw := fun hr => by cases k2 hr
        cases e with
        | internal =>
          obtain ⟨h1, h2⟩ := ih s1 g k1
          refine ⟨h1, fun g' s' hg c hc hcs => ?_⟩
          rcases List.mem_cons.1 hc with rfl | hc
          · exact hne
          · exact h2 g' s' hg c hc hcs
        | revoked => exact ⟨k1, fun g' s' hg => by cases hg⟩
        | unknown => exact ⟨k1, fun g' s' hg => by cases hg⟩
        | protocol => exact ⟨k1, fun g' s' hg => by cases hg⟩
      | resp q =>
        dsimp only
        split
        · exact ⟨k1, fun g' s' hg => by cases hg⟩
        · exact ⟨k1, fun g' s' hg => by cases hg⟩
        · rename_i hgood
          have hne : cert.raw ≠ x.raw := by
            intro hr
            have := k2 hr
            cases this
            rw [h.revoked] at hgood
            cases hgood
          obtain ⟨h1, h2⟩ := ih s1 true k1
          refine ⟨h1, fun g' s' hg c hc hcs => ?_⟩
          rcases List.mem_cons.1 hc with rfl | hc
          · exact hne
          · exact h2 g' s' hg c hc hcs
        · exact ⟨k1, fun g' s' hg => by cases hg⟩

theorem checkChains_known {env : Env} {x : Cert} {r : Resp} (chs : List (List Cert)) :
    ∀ (s : State) (last : Option Err), Spec.KnownRevoked env s x r →
    ∀ s', checkChains env s chs last = (.accept, s') → (chs = [] ∧ last = none) ∨
      ∃ ch ∈ chs, ∀ c ∈ ch, c.servers ≠ [] → c.raw ≠ x.raw := by
  induction chs with
  | nil =>
    intro s last h s' ha
    left
    refine ⟨rfl, ?_⟩
    cases last with
    | none => rfl
    | some e => cases ha
  | cons ch chs ih =>
    intro s last h s' ha
    right
    unfold checkChains at ha
    obtain ⟨k1, k2⟩ := checkChain_known ch s false h
    revert k1 k2 ha
    generalize checkChain env s ch false = y
    obtain ⟨res, s1⟩ := y
    intro ha k1 k2
    dsimp only at k1
    cases res with
    | panic => cases ha
    | bad e =>
      rcases ih s1 (some e) k1 s' ha with ⟨-, h2⟩ | ⟨ch', hm, h2⟩
      · cases h2
      · exact ⟨ch', List.mem_cons_of_mem _ hm, h2⟩
    | good g => exact ⟨ch, List.mem_cons_self, k2 g s1 rfl⟩

theorem useStaple_known {env : Env} {s : State} {x : Cert} {r : Resp}
    (h : Spec.KnownRevoked env s x r) (chains : List (List Cert)) :
    Spec.KnownRevoked env (useStaple env s chains).2 x r := by
  have k1 := h.kept s.tick _ h.cached
  have k2 := h.kept (s.tick + 1) _ k1
  have h1 : Spec.KnownRevoked env ⟨env.other s.tick s.cache, s.tick + 1, s.log⟩ x r :=
    ⟨h.revoked, k1, h.kept, h.current⟩
  unfold useStaple
  split
  · rename_i cert issuer _ _
    dsimp only
    split
    · exact h
    · split
      · have hadd : ∀ (v : Resp) (l : List Event), cert.raw ≠ x.raw →
            Spec.KnownRevoked env ⟨(env.other (s.tick + 1) (env.other s.tick s.cache)).add cert.raw
              (some v), s.tick + 1 + 1, l⟩ x r := by
          intro v l hne
          refine ⟨h.revoked, ?_, h.kept, h.current⟩
          rw [Cache.get_add, if_neg (Ne.symm hne)]
          exact k2
        split
        · exact h1
        · rename_i q hq
          split
          · exact h1
          · rename_i hns
            apply hadd
            intro hr
            rw [hr, k1] at hq
            cases hq
            exact hns h.revoked
        · rename_i hq
          apply hadd
          intro hr
          rw [hr, k1] at hq
          cases hq
      · exact h
  · exact h

/-- C52. While a revoked response for `x` is cached, unexpired and not evicted, verification
accepts only by way of a chain that does not contain `x` (as a certificate that names OCSP
servers, the only ones for which responses are ever cached), whatever is stapled. -/
theorem revoked_not_whitewashed (env : Env) (s s' : State) (x : Cert) (r : Resp)
    (hk : Spec.KnownRevoked env s x r) (chains : List (List Cert)) (stapled : Bool)
    (hne : chains ≠ []) (h : verifyChains env s chains stapled = (.accept, s')) :
    ∃ ch ∈ chains, ∀ c ∈ ch, c.servers ≠ [] → c.raw ≠ x.raw := by
  unfold verifyChains at h
  split at h
  · have hs := useStaple_known hk chains
    cases hu : useStaple env s chains with
    | mk v s1 =>
      rw [hu] at h hs
      cases v with
      | accept =>
        rcases checkChains_known chains _ _ hs _ h with ⟨h1, -⟩ | h1
        · exact absurd h1 hne
        · exact h1
      | refuse e => cases h
      | panic => cases h
  · rcases checkChains_known chains _ _ hk _ h with ⟨h1, -⟩ | h1
    · exact absurd h1 hne
    · exact h1

theorem checkChain_no_servers (env : Env) (s : State) (ch : List Cert) (h : ∀ c ∈ ch, c.servers = []) (g : Bool) :
    checkChain env s ch g = (.good g, s) := by
  induction ch with
  | nil => rfl
  | cons c ch ih =>
    unfold checkChain
    rw [if_pos (h c (by simp)), ih fun x hx => h x (by simp [hx])]

/-- C51. A chain whose certificates name no servers is accepted without asking anyone. -/
theorem no_servers_accepted (env : Env) (s : State) (ch : List Cert) (chs : List (List Cert))
    (h : ∀ c ∈ ch, c.servers = []) : verifyChains env s (ch :: chs) false = (.accept, s) := by
  unfold verifyChains checkChains
  rw [if_neg (by simp), checkChain_no_servers env s ch h]
  rfl

example : ∀ c ∈ [(⟨1, 1, []⟩ : Cert)], c.servers = [] := by simp

/-- C52 for a leaf: all chains of a handshake start with the peer's certificate, so a peer whose
certificate is known to be revoked is not accepted, with any staple. -/
theorem revoked_leaf_refused (env : Env) (s : State) (x : Cert) (r : Resp)
    (hk : Spec.KnownRevoked env s x r) (hx : x.servers ≠ []) (chains : List (List Cert))
    (stapled : Bool) (hne : chains ≠ []) (hleaf : ∀ ch ∈ chains, x ∈ ch) :
    (verifyChains env s chains stapled).1 ≠ .accept := by
  intro h
  obtain ⟨ch, hm, hc⟩ := revoked_not_whitewashed env s (verifyChains env s chains stapled).2 x r hk
    chains stapled hne (by rw [← h])
  exact hc x (hleaf ch hm) hx rfl

/-- A good staple for a certificate cached as revoked; without the cached response it would be
accepted. -/
example :
    let s : State := ⟨[(1, some ⟨100, .revoked, 1000, 0⟩)], 0, []⟩
    (verifyChains Ex.env s [[Ex.leaf, Ex.inter, Ex.root]] true).1 = .refuse .revoked ∧
    (verifyChains Ex.env Ex.s0 [[Ex.leaf, Ex.inter, Ex.root]] true).1 = .accept := by
  decide

example : Spec.KnownRevoked { Ex.env with now := fun i => min i 500 }
    ⟨[(1, some ⟨100, .revoked, 1000, 0⟩)], 0, []⟩ Ex.leaf ⟨100, .revoked, 1000, 0⟩ :=
  ⟨rfl, rfl, fun _ _ h => h, fun i => by dsimp only; omega⟩

/-! ## C53 -/

/-- The response an event relies on is about the certificate and was current at the time. -/
def Spec.Sound : Event → Prop
  | .cached c _ r t => r.serial = c.serial ∧ t < r.next
  | .fetched c _ _ r t => r.serial = c.serial ∧ t < r.next
  | .stapled c _ r t => r.serial = c.serial ∧ t < r.next
  | .failed .. => True

/-- What the code itself ensures: a cached response is used only until it expires, a stapled one
only for its serial number and until it expires; a fetched one is what one of the certificate's
servers answered. -/
def Spec.Weak (env : Env) : Event → Prop
  | .cached _ _ r t => t < r.next
  | .fetched c i srv r _ => srv ∈ c.servers ∧ ∃ n, env.fetch n c i srv = .ok r
  | .stapled c i r t => t < r.next ∧ env.staple c i = some r
  | .failed .. => True

theorem checkChain_log {P : Event → Prop} (env : Env)
    (hresp : ∀ s c i, (∀ e ∈ s.log, P e) → ∀ e ∈ (response env s c i 0).2.log, P e)
    (ch : List Cert) : ∀ (s : State) (g : Bool), (∀ e ∈ s.log, P e) →
    ∀ e ∈ (checkChain env s ch g).2.log, P e := by
  induction ch with
  | nil => intro s g h; exact h
  | cons c rest ih =>
    intro s g h
    unfold checkChain
    split
    · exact ih s g h
    · have h1 := hresp s c (issuerOf c rest) h
      revert h1
      generalize response env s c (issuerOf c rest) 0 = y
      obtain ⟨res, s1⟩ := y
      intro h1
      dsimp only at h1
      cases res with
      | nilResp => exact h1
      | panic => exact h1
      | err e => cases e with
        | internal => exact ih s1 g h1
        | revoked => exact h1
        | unknown => exact h1
        | protocol => exact h1
      | resp q =>
        dsimp only
        split
        · exact h1
        · exact h1
        · exact ih s1 true h1
        · exact h1

theorem verify_log {P : Event → Prop} (env : Env)
    (hresp : ∀ s c i, (∀ e ∈ s.log, P e) → ∀ e ∈ (response env s c i 0).2.log, P e)
    (hst : ∀ c i r n, env.staple c i = some r → env.now n < r.next → P (.stapled c i r (env.now n)))
    (s : State) (chains : List (List Cert)) (stapled : Bool) (h : ∀ e ∈ s.log, P e) :
    ∀ e ∈ (verifyChains env s chains stapled).2.log, P e := by
  have hcs : ∀ (chs : List (List Cert)) (s : State) (last : Option Err), (∀ e ∈ s.log, P e) →
      ∀ e ∈ (checkChains env s chs last).2.log, P e := by
    intro chs
    induction chs with
    | nil => intro s last h; exact h
    | cons ch chs ih =>
      intro s last h
      unfold checkChains
      have h1 := checkChain_log env hresp ch s false h
      revert h1
      generalize checkChain env s ch false = y
      obtain ⟨res, s1⟩ := y
      intro h1
      cases res with
      | panic => exact h1
      | bad e => exact ih s1 _ h1
      | good g => cases g <;> exact h1
  have hu : ∀ e ∈ (useStaple env s chains).2.log, P e := by
    unfold useStaple
    split
    · rename_i cert issuer _ _
      dsimp only
      split
      · exact h
      · rename_i r hr
        split
        · rename_i hc
          have hadd : ∀ e ∈ Event.stapled cert issuer r (env.now s.tick) :: s.log, P e := by
            intro e he
            rcases List.mem_cons.1 he with rfl | he
            · exact hst cert issuer r s.tick hr hc.1
            · exact h e he
          split
          · exact h
          · split
            · exact h
            · exact hadd
          · exact hadd
        · exact h
    · exact h
  unfold verifyChains
  split
  · revert hu
    generalize useStaple env s chains = y
    obtain ⟨v, s1⟩ := y
    intro hu
    cases v with
    | accept => exact hcs chains s1 none hu
    | refuse e => exact hu
    | panic => exact hu
  · exact hcs chains s none h

/-- C53 (staples). What is stapled counts only if something is stapled, and a stapled response that cannot be read,
is out of date or does not say good is treated as if none had been sent. -/
theorem staple_ignored (env : Env) (s : State) (cert issuer : Cert) (rest : List Cert) (chs : List (List Cert)) :
    (∀ st, verifyChains { env with staple := st } s ((cert :: issuer :: rest) :: chs) false =
      verifyChains env s ((cert :: issuer :: rest) :: chs) false) ∧
    ((∀ r, env.staple cert issuer = some r → r.status ≠ .good ∨ r.next ≤ env.now s.tick) →
      verifyChains env s ((cert :: issuer :: rest) :: chs) true =
      verifyChains env s ((cert :: issuer :: rest) :: chs) false) := by
  constructor
  · intro st
    have hf : ∀ (i : Nat) (c d : Cert) (ss : List Nat) last,
        fetchLoop { env with staple := st } i c d ss last = fetchLoop env i c d ss last := by
      intro i c d ss
      induction ss with
      | nil => intro last; rfl
      | cons a ss ih => intro last; simp only [fetchLoop, ih]
    have hr : ∀ (s : State) c d m, response { env with staple := st } s c d m = response env s c d m := by
      intro s c d m
      simp only [response, hf]
    have hc : ∀ (ch : List Cert) (s : State) g, checkChain { env with staple := st } s ch g = checkChain env s ch g := by
      intro ch
      induction ch with
      | nil => intro s g; rfl
      | cons c ch ih => intro s g; simp only [checkChain, hr, ih]
    have hcs : ∀ (chs : List (List Cert)) (s : State) l,
        checkChains { env with staple := st } s chs l = checkChains env s chs l := by
      intro chs
      induction chs with
      | nil => intro s l; rfl
      | cons c ch ih => intro s l; simp only [checkChains, hc, ih]
    exact hcs _ _ _
  · intro h
    have hu : useStaple env s ((cert :: issuer :: rest) :: chs) = (.accept, s) := by
      unfold useStaple
      dsimp only
      split
      · rfl
      · rename_i r hr
        rw [if_neg]
        rintro ⟨h1, h2⟩
        rcases h r hr with h3 | h3
        · exact h3 h2
        · omega
    unfold verifyChains
    rw [if_pos rfl, hu]
    rfl

/-- C53 (staples). A stapled response for a certificate whose issuer is not in the first chain is treated as if none had
been sent. -/
theorem staple_short (env : Env) (s : State) (chains : List (List Cert))
    (h : ∀ chain ∈ chains.head?, chain.length < 2) :
    verifyChains env s chains true = verifyChains env s chains false := by
  unfold verifyChains useStaple
  match chains, h with
  | [], _ => rfl
  | [] :: _, _ => rfl
  | [_] :: _, _ => rfl
  | (_ :: _ :: _) :: _, h => exact absurd (h _ rfl) (by simp)

example : ∀ chain ∈ [[(⟨5, 500, []⟩ : Cert)]].head?, chain.length < 2 := by decide

/-- C53 (staples). A stapled response that is current and says good is relied on and remembered, unless the cache
says revoked about this certificate, in which case the connection is refused, or holds an empty entry for it. -/
theorem staple_used (env : Env) (s : State) (cert issuer : Cert) (rest : List Cert) (chs : List (List Cert)) (r : Resp)
    (hst : env.staple cert issuer = some r) (hg : r.status = .good) (hn : env.now s.tick < r.next)
    (hp : (env.other s.tick s.cache).get cert.raw ≠ some none) :
    (∃ q, (env.other s.tick s.cache).get cert.raw = some (some q) ∧ q.status = .revoked ∧
      (verifyChains env s ((cert :: issuer :: rest) :: chs) true).1 = .refuse .revoked) ∨
    ((∀ q, (env.other s.tick s.cache).get cert.raw = some (some q) → q.status ≠ .revoked) ∧
      ∃ s1, s1.log = .stapled cert issuer r (env.now s.tick) :: s.log ∧
      s1.cache.get cert.raw = some (some r) ∧
      verifyChains env s ((cert :: issuer :: rest) :: chs) true =
        verifyChains env s1 ((cert :: issuer :: rest) :: chs) false) := by
  unfold verifyChains
  rw [if_pos rfl]
  unfold useStaple
  dsimp only
  rw [hst]
  dsimp only
  rw [if_pos ⟨hn, hg⟩]
  cases hc : (env.other s.tick s.cache).get cert.raw with
  | none =>
    right
    refine ⟨fun q h => (nomatch h), _, rfl, ?_, rfl⟩
    rw [Cache.get_add]; simp
  | some v =>
    cases v with
    | none => exact absurd hc hp
    | some q =>
      dsimp only
      by_cases hq : q.status = .revoked
      · left
        refine ⟨q, rfl, hq, ?_⟩
        rw [if_pos hq]
      · right
        rw [if_neg hq]
        refine ⟨fun q' h => by cases h; exact hq, _, rfl, ?_, rfl⟩
        rw [Cache.get_add]; simp

/-- Non-vacuity: a current staple that says good and one that does not. -/
example :
    let st : Cert → Cert → Option Resp := fun c _ => some ⟨c.serial, .good, 1000, 0⟩
    let env := { Ex.env with staple := st }
    env.staple Ex.leaf Ex.inter = some ⟨100, .good, 1000, 0⟩ ∧ env.now Ex.s0.tick < 1000 ∧
      (env.other Ex.s0.tick Ex.s0.cache).get Ex.leaf.raw = none ∧
      (∀ r, Ex.env.staple Ex.leaf Ex.inter = some r → r.status = .good) ∧
      (⟨100, .unknown, 1000, 0⟩ : Resp).status ≠ .good := by
  refine ⟨rfl, by decide, rfl, ?_, by decide⟩
  intro r h
  cases h
  rfl

/-- C53, what the code ensures for all verifications. -/
theorem relied_weak_partial (env : Env) (s : State) (chains : List (List Cert)) (stapled : Bool)
    (h : ∀ e ∈ s.log, Spec.Weak env e) :
    ∀ e ∈ (verifyChains env s chains stapled).2.log, Spec.Weak env e := by
  apply verify_log env _ _ s chains stapled h
  · intro s c i h
    have he := response_ends env s c i 0
    revert he
    generalize response env s c i 0 = y
    intro he
    cases he with
    | hit r hg ht =>
      intro e he
      rcases List.mem_cons.1 he with rfl | he
      · exact ht
      · exact h e he
    | fetched srv r hm hf hq =>
      intro e he
      rcases List.mem_cons.1 he with rfl | he
      · exact ⟨hm, s.tick, hf⟩
      · exact h e he
    | failed x hq =>
      intro e he
      rcases List.mem_cons.1 he with rfl | he
      · trivial
      · exact h e he
    | nilResp => exact h
    | panic => exact h
  · intro c i r n hr hn
    exact ⟨hn, hr⟩

/-- Responses in the cache are about the certificate they are cached for. -/
def Spec.CacheSound (serialOf : Nat → Nat) (c : Cache) : Prop :=
  ∀ k r, c.get k = some (some r) → r.serial = serialOf k

/-- C53 (partial: the servers answer for the serial number they were asked about, and with
responses that are current; the code checks neither, see `relied_violated`). Then everything
relied on is about the certificate in question and current. `serialOf` maps the identity of a
certificate to its serial number. -/
theorem relied_partial (env : Env) (serialOf : Nat → Nat)
    (hfetch : ∀ n c i srv r, env.fetch n c i srv = .ok r →
      r.serial = c.serial ∧ env.now (n + 1) < r.next)
    (hstaple : ∀ c i r, env.staple c i = some r → r.serial = c.serial)
    (hother : ∀ n c, Spec.CacheSound serialOf c → Spec.CacheSound serialOf (env.other n c))
    (s : State) (hs : Spec.CacheSound serialOf s.cache)
    (chains : List (List Cert)) (stapled : Bool)
    (h : ∀ e ∈ s.log, Spec.Sound e)
    (hall : ∀ ch ∈ chains, ∀ c ∈ ch, c.serial = serialOf c.raw) :
    ∀ e ∈ (verifyChains env s chains stapled).2.log, Spec.Sound e := by
  have hadd : ∀ (c : Cache) k r, Spec.CacheSound serialOf c → r.serial = serialOf k →
      Spec.CacheSound serialOf (c.add k (some r)) := by
    intro c k r hc hr k' r' hk
    rw [Cache.get_add] at hk
    split at hk
    · rename_i he
      simp only [Option.some.injEq] at hk
      subst hk he
      exact hr
    · exact hc k' r' hk
  have haddN : ∀ (c : Cache) k, Spec.CacheSound serialOf c →
      Spec.CacheSound serialOf (c.add k none) := by
    intro c k hc k' r' hk
    rw [Cache.get_add] at hk
    split at hk
    · cases hk
    · exact hc k' r' hk
  have hresp : ∀ (s : State) (c i : Cert), c.serial = serialOf c.raw →
      (Spec.CacheSound serialOf s.cache ∧ ∀ e ∈ s.log, Spec.Sound e) →
      (Spec.CacheSound serialOf (response env s c i 0).2.cache ∧
        ∀ e ∈ (response env s c i 0).2.log, Spec.Sound e) := by
    intro s c i hcs ⟨hc, hl⟩
    have he := response_ends env s c i 0
    revert he
    generalize response env s c i 0 = y
    intro he
    have h1 := hother s.tick _ hc
    have h2 := hother (s.tick + 1) _ h1
    cases he with
    | hit r hg ht =>
      refine ⟨h1, ?_⟩
      intro e he
      rcases List.mem_cons.1 he with rfl | he
      · exact ⟨by rw [hcs]; exact h1 _ _ hg, ht⟩
      · exact hl e he
    | fetched srv r hm hf hq =>
      obtain ⟨f1, f2⟩ := hfetch _ _ _ _ _ hf
      refine ⟨hadd _ _ _ h2 (f1.trans hcs), ?_⟩
      intro e he
      rcases List.mem_cons.1 he with rfl | he
      · exact ⟨f1, f2⟩
      · exact hl e he
    | failed x hq =>
      refine ⟨h1, ?_⟩
      intro e he
      rcases List.mem_cons.1 he with rfl | he
      · trivial
      · exact hl e he
    | nilResp => exact ⟨haddN _ _ h2, hl⟩
    | panic => exact ⟨h1, hl⟩
  have hch : ∀ (ch : List Cert) (s : State) (g : Bool), (∀ c ∈ ch, c.serial = serialOf c.raw) →
      (Spec.CacheSound serialOf s.cache ∧ ∀ e ∈ s.log, Spec.Sound e) →
      (Spec.CacheSound serialOf (checkChain env s ch g).2.cache ∧
        ∀ e ∈ (checkChain env s ch g).2.log, Spec.Sound e) := by
    intro ch
    induction ch with
    | nil => intro s g _ h; exact h
    | cons c rest ih =>
      intro s g hall h
      have hrest : ∀ c ∈ rest, c.serial = serialOf c.raw :=
        fun c hc => hall c (List.mem_cons_of_mem _ hc)
      unfold checkChain
      split
      · exact ih s g hrest h
      · have h1 := hresp s c (issuerOf c rest) (hall c List.mem_cons_self) h
        revert h1
        generalize response env s c (issuerOf c rest) 0 = y
        obtain ⟨res, s1⟩ := y
        intro h1
        dsimp only at h1
        cases res with
        | nilResp => exact h1
        | panic => exact h1
        | err e => cases e with
          | internal => exact ih s1 g hrest h1
          | revoked => exact h1
          | unknown => exact h1
          | protocol => exact h1
        | resp q =>
          dsimp only
          split
          · exact h1
          · exact h1
          · exact ih s1 true hrest h1
          · exact h1
  have hcs : ∀ (chs : List (List Cert)) (s : State) (last : Option Err),
      (∀ ch ∈ chs, ∀ c ∈ ch, c.serial = serialOf c.raw) →
      (Spec.CacheSound serialOf s.cache ∧ ∀ e ∈ s.log, Spec.Sound e) →
      ∀ e ∈ (checkChains env s chs last).2.log, Spec.Sound e := by
    intro chs
    induction chs with
    | nil => intro s last _ h; exact h.2
    | cons ch chs ih =>
      intro s last hall h
      unfold checkChains
      have h1 := hch ch s false (hall ch List.mem_cons_self) h
      revert h1
      generalize checkChain env s ch false = y
      obtain ⟨res, s1⟩ := y
      intro h1
      cases res with
      | panic => exact h1.2
      | bad e => exact ih s1 _ (fun ch hm => hall ch (List.mem_cons_of_mem _ hm)) h1
      | good g => cases g <;> exact h1.2
  have hu : Spec.CacheSound serialOf (useStaple env s chains).2.cache ∧
      ∀ e ∈ (useStaple env s chains).2.log, Spec.Sound e := by
    unfold useStaple
    split
    · rename_i cert issuer rest chs
      dsimp only
      split
      · exact ⟨hs, h⟩
      · rename_i r hr
        split
        · rename_i hc
          have h1 := hother s.tick _ hs
          have h2 := hother (s.tick + 1) _ h1
          have hadd' := hadd _ cert.raw r h2 ((hstaple _ _ _ hr).trans
            (hall _ List.mem_cons_self cert List.mem_cons_self))
          have hl : ∀ e ∈ Event.stapled cert issuer r (env.now s.tick) :: s.log, Spec.Sound e := by
            intro e he
            rcases List.mem_cons.1 he with rfl | he
            · exact ⟨hstaple _ _ _ hr, hc.1⟩
            · exact h e he
          split
          · exact ⟨h1, h⟩
          · split
            · exact ⟨h1, h⟩
            · exact ⟨hadd', hl⟩
          · exact ⟨hadd', hl⟩
        · exact ⟨hs, h⟩
    · exact ⟨hs, h⟩
  unfold verifyChains
  split
  · revert hu
    generalize useStaple env s chains = y
    obtain ⟨v, s1⟩ := y
    intro hu
    cases v with
    | accept => exact hcs chains s1 none hall hu
    | refuse e => exact hu.2
    | panic => exact hu.2
  · exact hcs chains s none hall ⟨hs, h⟩

/-- C53 does not hold: a server's answer about another certificate, long expired, makes the proxy
accept. -/
theorem relied_violated :
    ∃ (env : Env) (c i : Cert) (r : Resp) (t srv : Nat),
      (verifyChains env Ex.s0 [[c, i]] false).1 = .accept ∧
      Event.fetched c i srv r t ∈ (verifyChains env Ex.s0 [[c, i]] false).2.log ∧
      r.serial ≠ c.serial ∧ r.next < t :=
  ⟨{ Ex.env with now := fun i => 5000 + i, fetch := fun _ _ _ _ => .ok ⟨42, .good, 10, 0⟩ },
    Ex.leaf, Ex.root, ⟨42, .good, 10, 0⟩, 5001, 7, by decide, by decide, by decide, by decide⟩

/-- The hypotheses of `relied_partial` hold in the example environment, with a clock that stays
below 1000. -/
example : ∀ e ∈ (verifyChains { Ex.env with now := fun i => min i 500 } Ex.s0
    [[Ex.leaf, Ex.inter, Ex.root]] true).2.log, Spec.Sound e := by
  apply relied_partial _ (fun raw => 100 * raw)
  · intro n c i srv r h
    simp only [Ex.env] at h
    split at h
    · cases h
    · cases h
      refine ⟨rfl, ?_⟩
      show min (n + 1) 500 < 1000
      omega
  · intro c i r h
    cases h; rfl
  · intro n c h; exact h
  · intro k r h; cases h
  · intro e h; cases h
  · decide

/-! ## C87: stapling -/

/-- C87 (partial: for certificates that name OCSP servers; others panic, see
`staple_violated`). Obtaining the staple for an own certificate does not panic, unless another
user of the cache left a nil response for it, which only happens to certificates without OCSP
servers (`nil_only_without_servers`); and a staple is attached only when it says good and comes
from a server of the certificate or from the cache, valid for another hour. -/
theorem staple_partial (env : Env) (s : State) (cert : Cert) (issuer : Option Cert)
    (hs : cert.servers ≠ [])
    (hnil : (env.other s.tick s.cache).get cert.raw ≠ some none) :
    (stapleOwn env s cert issuer).1 ≠ .panic ∧
    ∀ r, (stapleOwn env s cert issuer).1 = .attached r → r.status = .good ∧
      ∃ i, issuer = some i ∧
        ((∃ srv ∈ cert.servers, ∃ n, env.fetch n cert i srv = .ok r) ∨
         ((env.other s.tick s.cache).get cert.raw = some (some r) ∧
           env.now s.tick + 3600 < r.next)) := by
  unfold stapleOwn
  cases issuer with
  | none => exact ⟨by simp, fun r h => by cases h⟩
  | some i =>
    dsimp only
    have he := response_ends env s cert i 3600
    revert he
    generalize response env s cert i 3600 = y
    intro he
    cases he with
    | hit r hg ht =>
      dsimp only
      split
      · rename_i hgood
        refine ⟨by simp, fun r' h => ?_⟩
        cases h
        exact ⟨hgood, i, rfl, Or.inr ⟨hg, ht⟩⟩
      · exact ⟨by simp, fun r' h => by cases h⟩
    | fetched srv r hm hf hq =>
      dsimp only
      split
      · rename_i hgood
        refine ⟨by simp, fun r' h => ?_⟩
        cases h
        exact ⟨hgood, i, rfl, Or.inl ⟨srv, hm, s.tick, hf⟩⟩
      · exact ⟨by simp, fun r' h => by cases h⟩
    | failed x hq => exact ⟨by simp, fun r' h => by cases h⟩
    | nilResp h1 => exact absurd h1 hs
    | panic h1 => exact absurd h1 hnil

/-- `response` leaves a nil response in the cache only for a certificate without servers. -/
theorem nil_only_without_servers (env : Env) (s : State) (cert issuer : Cert) (margin k : Nat)
    (hother : ∀ n c, Cache.get c k ≠ some none → (env.other n c).get k ≠ some none)
    (h0 : s.cache.get k ≠ some none)
    (h : (response env s cert issuer margin).2.cache.get k = some none) :
    k = cert.raw ∧ cert.servers = [] := by
  have he := response_ends env s cert issuer margin
  revert he h
  generalize response env s cert issuer margin = y
  intro h he
  have h1 := hother s.tick _ h0
  have h2 := hother (s.tick + 1) _ h1
  cases he with
  | hit r hg ht => exact absurd h h1
  | fetched srv r hm hf hq =>
    dsimp only at h
    rw [Cache.get_add] at h
    split at h
    · cases h
    · exact absurd h h2
  | failed x hq => exact absurd h h1
  | nilResp hs hq =>
    dsimp only at h
    rw [Cache.get_add] at h
    split at h
    · rename_i hk; exact ⟨hk, hs⟩
    · exact absurd h h2
  | panic hg => exact absurd h h1

/-- C87 does not hold for a certificate, with its issuer, that names no OCSP server: the handshake
panics, and so does the next flush of the cache, in a goroutine without recovery. -/
theorem staple_violated :
    ∃ (cert issuer : Cert), (stapleOwn Ex.env Ex.s0 cert (some issuer)).1 = .panic ∧
      ∀ now, flush now (stapleOwn Ex.env Ex.s0 cert (some issuer)).2.cache = none :=
  ⟨⟨5, 500, []⟩, Ex.root, by decide, fun _ => rfl⟩

example : (stapleOwn Ex.env Ex.s0 Ex.leaf (some Ex.inter)).1 = .attached (Ex.good Ex.leaf) := by
  decide

/-! ## C88: the cache survives a restart -/

theorem flush_mem {now : Nat} : ∀ {c : Cache} {items : List (Nat × Resp)},
    flush now c = some items → ∀ k r, (k, r) ∈ items ↔ ((k, some r) ∈ c ∧ now ≤ r.next) := by
  intro c
  induction c with
  | nil => intro items h k r; cases h; simp
  | cons p c ih =>
    obtain ⟨a, o⟩ := p
    intro items h k r
    cases o with
    | none => cases h
    | some q =>
      unfold flush at h
      cases hf : flush now c with
      | none => rw [hf] at h; cases h
      | some its =>
        rw [hf] at h
        dsimp only at h
        split at h
        · rename_i hlt
          cases h
          rw [ih hf]
          constructor
          · rintro ⟨h1, h2⟩; exact ⟨List.mem_cons_of_mem _ h1, h2⟩
          · rintro ⟨h1, h2⟩
            rcases List.mem_cons.1 h1 with h1 | h1
            · cases h1; omega
            · exact ⟨h1, h2⟩
        · rename_i hlt
          cases h
          rw [List.mem_cons, ih hf]
          constructor
          · rintro (h1 | ⟨h1, h2⟩)
            · cases h1; exact ⟨List.mem_cons_self, by omega⟩
            · exact ⟨List.mem_cons_of_mem _ h1, h2⟩
          · rintro ⟨h1, h2⟩
            rcases List.mem_cons.1 h1 with h1 | h1
            · cases h1; exact Or.inl rfl
            · exact Or.inr ⟨h1, h2⟩

theorem load_get (parses : Resp → Bool) (now : Nat) (k : Nat) (items : List (Nat × Resp)) :
    ∀ (c : Cache) (r : Resp), parses r = true → now < r.next →
    (∀ r', (k, r') ∈ items → r' = r) →
    ((k, r) ∈ items ∨ c.get k = some (some r)) →
    (items.foldl (fun c it => if parses it.2 && decide (now < it.2.next) then
      c.add it.1 (some it.2) else c) c).get k = some (some r) := by
  induction items with
  | nil =>
    intro c r _ _ _ h
    rcases h with h | h
    · cases h
    · exact h
  | cons it items ih =>
    obtain ⟨a, q⟩ := it
    intro c r hp hn hu h
    rw [List.foldl_cons]
    apply ih _ r hp hn (fun r' hr' => hu r' (List.mem_cons_of_mem _ hr'))
    by_cases ha : a = k
    · subst ha
      have := hu q List.mem_cons_self
      subst this
      right
      dsimp only
      rw [if_pos (by simp [hp, hn]), Cache.get_add, if_pos rfl]
    · rcases h with h | h
      · rcases List.mem_cons.1 h with h | h
        · cases h; exact absurd rfl ha
        · exact Or.inl h
      · right
        dsimp only
        split
        · rw [Cache.get_add, if_neg (Ne.symm ha)]; exact h
        · exact h

theorem mem_of_get {c : Cache} {k : Nat} {v : Option Resp} (h : c.get k = some v) :
    (k, v) ∈ c := by
  unfold Cache.get at h
  induction c with
  | nil => cases h
  | cons p c ih =>
    obtain ⟨a, b⟩ := p
    rw [List.lookup_cons] at h
    split at h
    · rename_i he
      simp only [beq_iff_eq] at he
      cases h
      subst he
      exact List.mem_cons_self
    · exact List.mem_cons_of_mem _ (ih h)

/-- C88. A response that is cached when the cache is written and has not expired when the proxy
starts again is found by the restarted proxy; in particular a revocation learnt before is not
forgotten. (Cache keys are distinct; the stored bytes parse again; the cache has no nil entry, in
which case `flush` panics.) -/
theorem cache_survives_restart (parses : Resp → Bool) (now now' : Nat) (c : Cache)
    (items : List (Nat × Resp)) (k : Nat) (r : Resp)
    (hkeys : (c.map (·.1)).Nodup) (hp : parses r = true)
    (hf : flush now c = some items) (hg : c.get k = some (some r))
    (h1 : now ≤ now') (h2 : now' < r.next) :
    (load parses now' items).get k = some (some r) := by
  have hmem := mem_of_get hg
  apply load_get parses now' k items [] r hp h2
  · intro r' hr'
    have h3 := ((flush_mem hf k r').1 hr').1
    have := List.pairwise_map.1 hkeys
    clear hf hg
    induction c with
    | nil => cases hmem
    | cons p c ih =>
      rw [List.pairwise_cons] at this
      rcases List.mem_cons.1 hmem with e1 | e1 <;> rcases List.mem_cons.1 h3 with e2 | e2
      · rw [← e1] at e2; cases e2; rfl
      · exact absurd (by rw [← e1]) (this.1 _ e2)
      · exact absurd (by rw [← e2]) (this.1 _ e1)
      · exact ih (List.nodup_cons.1 (by simpa using hkeys)).2 e1 e2 this.2
  · exact Or.inl ((flush_mem hf k r).2 ⟨hmem, by omega⟩)

example : ∃ items, flush 10 [(1, some ⟨100, .revoked, 1000, 0⟩), (2, some (Ex.good Ex.inter)),
      (3, some ⟨1, .good, 5, 0⟩)] = some items ∧ items.length = 2 ∧
    (load (fun _ => true) 20 items).get 1 = some (some ⟨100, .revoked, 1000, 0⟩) :=
  ⟨_, rfl, by decide, by decide⟩

end Verif.Ocsp
