import Verif.Model.RevokeAll
/-
C107: revoking all certificates.
-/
namespace Verif.RevokeAll

/-! ## Specification -/

/-- The reason codes of RFC 5280, section 5.3.1. -/
inductive Spec.Reason : String → Nat → Prop
  | unspecified : Spec.Reason "unspecified" 0
  | keyCompromise : Spec.Reason "keyCompromise" 1
  | superseded : Spec.Reason "superseded" 4
  | cessation : Spec.Reason "cessationOfOperation" 5

/-- The entry's certificate is `c`: its first certificate block. -/
def Spec.Holds (e : Entry) (c : Cert) : Prop :=
  ∃ pre post, e = some (pre ++ Block.cert (some c) :: post) ∧ ∀ x, Block.cert x ∉ pre

/-- The bytes are a key that can sign, in one of the three formats. -/
def Spec.IsKey (b : KeyBytes) (k : Nat) : Prop :=
  b.pkcs8 = some (some k) ∨ (b.pkcs8 = none ∧ (b.sec1 = some k ∨ (b.sec1 = none ∧ b.pkcs1 = some k)))

/-- The bytes are a key that is not for signing. -/
def Spec.NotForSigning (b : KeyBytes) : Prop := b.pkcs8 = some none

/-- The bytes are no key at all. -/
def Spec.Broken (b : KeyBytes) : Prop := b.pkcs8 = none ∧ b.sec1 = none ∧ b.pkcs1 = none

/-- The private key to use with the entry is `k`: it is the last private key block. -/
def Spec.HasKey (e : Entry) (k : Nat) : Prop :=
  ∃ pre b post, e = some (pre ++ Block.key b :: post) ∧ (∀ x, Block.key x ∉ post) ∧ Spec.IsKey b k

/-- The private key to use with the entry is broken. -/
def Spec.BrokenKey (e : Entry) : Prop :=
  ∃ pre b post, e = some (pre ++ Block.key b :: post) ∧ (∀ x, Block.key x ∉ post) ∧ Spec.Broken b

/-- The entry is taken for a certificate with its key: it can be read, it has a private key, and none that is not for
signing. -/
def Spec.Usable (e : Entry) : Prop :=
  ∃ bs, e = some bs ∧ (∃ b, Block.key b ∈ bs) ∧ ∀ b, Block.key b ∈ bs → ¬ Spec.NotForSigning b

/-- A request of a run was accepted. -/
def Spec.Accepted (env : Env) (reqs : List Request) (r : Request) : Prop :=
  ∃ l1 l2, reqs = l1 ++ r :: l2 ∧ env.server l2 r = true

/-! ## Lemmas -/

/-- The certificate blocks of an entry. -/
def certsOf : List Block → List (Option Cert)
  | [] => []
  | .cert c :: bs => c :: certsOf bs
  | _ :: bs => certsOf bs

theorem parsed_signer (b : KeyBytes) (k : Nat) : parsePrivateKey b = .signer k ↔ Spec.IsKey b k := by
  unfold parsePrivateKey Spec.IsKey
  rcases b with ⟨p8, e, p1⟩
  rcases p8 with _ | _ | x <;> rcases e with _ | y <;> rcases p1 with _ | z <;> simp

theorem parsed_nil (b : KeyBytes) : parsePrivateKey b = .nilSigner ↔ Spec.Broken b := by
  unfold parsePrivateKey Spec.Broken
  rcases b with ⟨p8, e, p1⟩
  rcases p8 with _ | _ | x <;> rcases e with _ | y <;> rcases p1 with _ | z <;> simp

theorem parsed_invalid (b : KeyBytes) : parsePrivateKey b = .invalid ↔ Spec.NotForSigning b := by
  unfold parsePrivateKey Spec.NotForSigning
  rcases b with ⟨p8, e, p1⟩
  rcases p8 with _ | _ | x <;> rcases e with _ | y <;> rcases p1 with _ | z <;> simp

/-- The key that was parsed; `none` inside is a nil one. -/
def keyOf (b : KeyBytes) : Option Nat :=
  match parsePrivateKey b with
  | .signer k => some k
  | _ => none

/-- The last key, starting with `p`. -/
def lastKey : List Block → Option (Option Nat) → Option (Option Nat)
  | [], p => p
  | .key b :: bs, _ => lastKey bs (some (keyOf b))
  | _ :: bs, p => lastKey bs p

/-- No key of the entry is an error. -/
def noError (bs : List Block) : Bool := bs.all fun
  | .key b => parsePrivateKey b != .invalid
  | _ => true

theorem noError_iff (bs : List Block) : noError bs = true ↔ ∀ b, Block.key b ∈ bs → ¬ Spec.NotForSigning b := by
  unfold noError
  rw [List.all_eq_true]
  constructor
  · intro h b hb hn
    have := h _ hb
    simp only [bne_iff_ne, ne_eq] at this
    exact this ((parsed_invalid b).2 hn)
  · intro h x hx
    match x with
    | .key b =>
      simp only [bne_iff_ne, ne_eq]
      exact fun he => h b hx ((parsed_invalid b).1 he)
    | .cert c => rfl
    | .other => rfl

theorem scan_eq (bs : List Block) : ∀ p cs,
    scan bs p cs = if noError bs then some (lastKey bs p, cs ++ certsOf bs) else none := by
  induction bs with
  | nil => intro p cs; simp [scan, lastKey, certsOf, noError]
  | cons b t ih =>
    intro p cs
    match b with
    | .key b =>
      unfold scan
      cases hb : parsePrivateKey b with
      | invalid => simp [noError, hb]
      | signer k =>
        have : noError (.key b :: t) = noError t := by simp [noError, hb]
        simp only [ih, this, lastKey, keyOf, hb, certsOf]
      | nilSigner =>
        have : noError (.key b :: t) = noError t := by simp [noError, hb]
        simp only [ih, this, lastKey, keyOf, hb, certsOf]
    | .cert c =>
      have : noError (.cert c :: t) = noError t := by simp [noError]
      simp [scan, ih, lastKey, certsOf, this]
    | .other =>
      have : noError (.other :: t) = noError t := by simp [noError]
      simp [scan, ih, lastKey, certsOf, this]

theorem certsOf_cons_iff (bs : List Block) (c : Cert) :
    (∃ r, certsOf bs = some c :: r) ↔ Spec.Holds (some bs) c := by
  induction bs with
  | nil =>
    constructor
    · rintro ⟨r, h⟩; simp [certsOf] at h
    · rintro ⟨pre, post, h, -⟩; simp at h
  | cons b t ih =>
    have skip : (∀ x, b ≠ .cert x) → (Spec.Holds (some (b :: t)) c ↔ Spec.Holds (some t) c) := by
      intro hb
      constructor
      · rintro ⟨pre, post, h, hp⟩
        cases pre with
        | nil => simp at h; exact absurd h.1 (hb _)
        | cons a pre =>
          simp at h
          exact ⟨pre, post, by simp [h.2], fun x hx => hp x (by simp [hx])⟩
      · rintro ⟨pre, post, h, hp⟩
        simp at h
        refine ⟨b :: pre, post, by simp [h], fun x hx => ?_⟩
        rcases List.mem_cons.mp hx with h1 | h1
        · exact hb x h1.symm
        · exact hp x h1
    match b with
    | .key k => rw [skip (by simp), ← ih]; simp [certsOf]
    | .other => rw [skip (by simp), ← ih]; simp [certsOf]
    | .cert x =>
      simp only [certsOf, List.cons.injEq]
      constructor
      · rintro ⟨r, rfl, -⟩
        exact ⟨[], t, rfl, by simp⟩
      · rintro ⟨pre, post, h, hp⟩
        cases pre with
        | nil => simp at h; exact ⟨_, h.1, rfl⟩
        | cons a pre =>
          simp at h
          exact absurd (by simp [← h.1]) (hp x)

theorem lastKey_none (bs : List Block) : ∀ p, lastKey bs p = none ↔ p = none ∧ ∀ b, Block.key b ∉ bs := by
  induction bs with
  | nil => intro p; simp [lastKey]
  | cons b t ih =>
    intro p
    match b with
    | .key b =>
      simp only [lastKey, ih]
      constructor
      · rintro ⟨h1, -⟩; cases h1
      · rintro ⟨-, h1⟩; exact absurd (by simp) (h1 b)
    | .cert c => simp [lastKey, ih]
    | .other => simp [lastKey, ih]

theorem lastKey_some (bs : List Block) : ∀ p k, lastKey bs p = some k →
    (∃ pre b post, bs = pre ++ Block.key b :: post ∧ (∀ x, Block.key x ∉ post) ∧ keyOf b = k) ∨
    (p = some k ∧ ∀ x, Block.key x ∉ bs) := by
  induction bs with
  | nil => intro p k hk; right; exact ⟨hk, by simp⟩
  | cons b t ih =>
    intro p k hk
    have push : (∃ pre b post, t = pre ++ Block.key b :: post ∧ (∀ x, Block.key x ∉ post) ∧ keyOf b = k) →
        (∃ pre b' post, b :: t = pre ++ Block.key b' :: post ∧ (∀ x, Block.key x ∉ post) ∧ keyOf b' = k) := by
      rintro ⟨pre, b', post, he, hp⟩
      exact ⟨b :: pre, b', post, by simp [he], hp⟩
    match b with
    | .key b' =>
      rcases ih (some (keyOf b')) k hk with h1 | ⟨h1, h2⟩
      · exact Or.inl (push h1)
      · left
        cases h1
        exact ⟨[], b', t, rfl, h2, rfl⟩
    | .cert c =>
      rcases ih p k hk with h1 | ⟨h1, h2⟩
      · exact Or.inl (push h1)
      · right; exact ⟨h1, by simp [h2]⟩
    | .other =>
      rcases ih p k hk with h1 | ⟨h1, h2⟩
      · exact Or.inl (push h1)
      · right; exact ⟨h1, by simp [h2]⟩

/-- The key that is read is the one of the entry. -/
def Key (e : Entry) : Option Nat → Prop
  | some k => Spec.HasKey e k
  | none => Spec.BrokenKey e

theorem readEntry_some {e : Entry} {k : Option Nat} {c : Cert} (h : readEntry e = some (k, c)) :
    Spec.Usable e ∧ Spec.Holds e c ∧ Key e k := by
  cases e with
  | none => simp [readEntry] at h
  | some bs =>
    simp only [readEntry, scan_eq, List.nil_append] at h
    by_cases hk : noError bs = true
    · rw [if_pos hk] at h
      split at h
      · rename_i k' c' r he
        simp only [Option.some.injEq, Prod.mk.injEq] at he h
        obtain ⟨h1, h2⟩ := he
        obtain ⟨rfl, rfl⟩ := h
        have hne := (noError_iff bs).1 hk
        rcases lastKey_some bs none k' h1 with ⟨pre, b, post, rfl, hp, hb⟩ | ⟨h3, -⟩
        · refine ⟨⟨_, rfl, ⟨b, by simp⟩, hne⟩, (certsOf_cons_iff _ c').mp ⟨r, h2⟩, ?_⟩
          unfold keyOf at hb
          cases hx : parsePrivateKey b with
          | signer n =>
            rw [hx] at hb
            subst hb
            exact ⟨pre, b, post, rfl, hp, (parsed_signer b n).1 hx⟩
          | nilSigner =>
            rw [hx] at hb
            subst hb
            exact ⟨pre, b, post, rfl, hp, (parsed_nil b).1 hx⟩
          | invalid => exact absurd ((parsed_invalid b).1 hx) (hne b (by simp))
        · cases h3
      · cases h
    · simp [hk] at h

theorem readEntry_usable {e : Entry} {c : Cert} (hu : Spec.Usable e) (hc : Spec.Holds e c) :
    ∃ k, readEntry e = some (k, c) ∧ Key e k := by
  obtain ⟨bs, rfl, ⟨k0, hk0⟩, hk⟩ := hu
  obtain ⟨r, hr⟩ := (certsOf_cons_iff bs c).mpr hc
  cases hl : lastKey bs none with
  | none => exact absurd hk0 ((lastKey_none bs none).mp hl |>.2 _)
  | some k =>
    have : readEntry (some bs) = some (k, c) := by
      simp only [readEntry, scan_eq, List.nil_append, if_pos ((noError_iff bs).2 hk), hl, hr]
    exact ⟨k, this, (readEntry_some this).2.2⟩

/-- The last private key block of an entry is one. -/
theorem last_unique {pre post pre' post' : List Block} {b b' : KeyBytes}
    (h : pre ++ Block.key b :: post = pre' ++ Block.key b' :: post')
    (hp : ∀ x, Block.key x ∉ post) (hp' : ∀ x, Block.key x ∉ post') : b = b' := by
  induction pre generalizing pre' with
  | nil =>
    cases pre' with
    | nil => simp at h; exact h.1
    | cons a t => simp at h; exact absurd (by simp [h.2]) (hp b')
  | cons a t ih =>
    cases pre' with
    | nil => simp at h; exact absurd (by simp [← h.2]) (hp' b)
    | cons a' t' => simp at h; exact ih h.2

theorem key_excl {e : Entry} {k : Nat} (h : Spec.HasKey e k) : ¬ Spec.BrokenKey e := by
  rintro ⟨pre, b, post, rfl, hp, h1, h2, h3⟩
  obtain ⟨pre', b', post', he, hp', hk⟩ := h
  simp only [Option.some.injEq] at he
  obtain rfl := last_unique he hp hp'
  rcases hk with hk | ⟨-, hk | ⟨-, hk⟩⟩
  · rw [h1] at hk; cases hk
  · rw [h2] at hk; cases hk
  · rw [h3] at hk; cases hk

theorem mem_allCerts {c : Cache} {n : String} {k : Option Nat} {x : Cert} :
    (n, k, x) ∈ allCerts c ↔ n ≠ acmeAccountKey ∧ ∃ e, (n, e) ∈ c ∧ readEntry e = some (k, x) := by
  unfold allCerts
  rw [List.mem_filterMap]
  constructor
  · rintro ⟨⟨n', e⟩, he, h⟩
    by_cases ha : n' = acmeAccountKey
    · simp [ha] at h
    · simp only [if_neg ha, Option.map_eq_some_iff, Prod.mk.injEq] at h
      obtain ⟨⟨k', x'⟩, h1, rfl, rfl, rfl⟩ := h
      exact ⟨ha, e, he, h1⟩
  · rintro ⟨ha, e, he, h⟩
    exact ⟨(n, e), he, by simp [ha, h]⟩

theorem parseReason_iff (r : String) (n : Nat) : parseReason r = some n ↔ Spec.Reason r n := by
  unfold parseReason
  constructor
  · intro h
    repeat' split at h
    all_goals first | (cases h; subst_vars; constructor) | cases h
  · intro h
    cases h <;> decide

theorem accepted_mono {env : Env} {reqs l : List Request} {r : Request} (h : Spec.Accepted env reqs r) :
    Spec.Accepted env (l ++ reqs) r := by
  obtain ⟨l1, l2, rfl, h⟩ := h
  exact ⟨l ++ l1, l2, by simp, h⟩

/-- What the loop does. -/
theorem loop_spec (env : Env) (code : Nat) (todo : List Item) : ∀ done,
    ∃ new, (loop env code todo done).1 = new ++ done ∧
      (∀ r ∈ new, r.reason = code ∧ env.now ≤ r.cert.notAfter ∧ ∃ n, (n, some r.key, r.cert) ∈ todo) ∧
      (∀ l1 r l2, new = l1 ++ r :: l2 → l1 ≠ [] → env.server (l2 ++ done) r = true) ∧
      ((loop env code todo done).2 ≠ .refused → ∀ l1 r l2, new = l1 ++ r :: l2 → env.server (l2 ++ done) r = true) ∧
      ((loop env code todo done).2 = .done →
        ∀ n k c, (n, k, c) ∈ todo → env.now ≤ c.notAfter → ∃ k', k = some k' ∧ ⟨k', c, code⟩ ∈ new) ∧
      ((loop env code todo done).2 = .refused → ∃ r l, new = r :: l ∧ env.server (l ++ done) r = false) ∧
      ((loop env code todo done).2 = .panic → ∃ n c, (n, none, c) ∈ todo ∧ env.now ≤ c.notAfter) ∧
      new.length ≤ todo.length := by
  induction todo with
  | nil => intro done; exact ⟨[], by simp [loop]⟩
  | cons x t ih =>
    intro done
    obtain ⟨n0, k0, c0⟩ := x
    unfold loop
    by_cases h1 : c0.notAfter < env.now
    · rw [if_pos h1]
      obtain ⟨new, ha, hb, hc, hd, hd', he, hp, hf⟩ := ih done
      refine ⟨new, ha, ?_, hc, hd, ?_, he, ?_, by simp; omega⟩
      · intro r hr
        obtain ⟨a, b, n, hn⟩ := hb r hr
        exact ⟨a, b, n, by simp [hn]⟩
      · intro hok n k c hm hnow
        rcases List.mem_cons.mp hm with h2 | h2
        · cases h2; omega
        · exact hd' hok n k c h2 hnow
      · intro hpa
        obtain ⟨n, c, hm, hn⟩ := hp hpa
        exact ⟨n, c, by simp [hm], hn⟩
    · rw [if_neg h1]
      cases k0 with
      | none =>
        dsimp only
        exact ⟨[], rfl, by simp, by simp, by simp, fun h => (nomatch h), fun h => (nomatch h),
          fun _ => ⟨n0, c0, by simp, by omega⟩, by simp⟩
      | some k0 =>
      dsimp only
      by_cases h2 : env.server done ⟨k0, c0, code⟩ = true
      · rw [if_pos h2]
        obtain ⟨new, ha, hb, hc, hd, hd', he, hp, hf⟩ := ih (⟨k0, c0, code⟩ :: done)
        have key : ∀ l1 r l2, new ++ [(⟨k0, c0, code⟩ : Request)] = l1 ++ r :: l2 →
            (∀ m1 m2, new = m1 ++ r :: m2 → m1 = l1 → env.server (m2 ++ ⟨k0, c0, code⟩ :: done) r = true) →
            env.server (l2 ++ done) r = true := by
          intro l1 r l2 heq hold
          rcases List.eq_nil_or_concat l2 with rfl | ⟨q, z, rfl⟩
          · have := List.append_inj' heq (by simp)
            simp at this
            rw [← this.2]; exact h2
          · rw [List.concat_eq_append] at heq ⊢
            have heq' : new ++ [(⟨k0, c0, code⟩ : Request)] = (l1 ++ r :: q) ++ [z] := by simp [heq]
            have := List.append_inj' heq' (by simp)
            obtain ⟨e1, e2⟩ := this
            simp at e2
            subst e2
            have := hold l1 q e1 rfl
            simpa using this
        refine ⟨new ++ [⟨k0, c0, code⟩], by simp [ha], ?_, ?_, ?_, ?_, ?_, ?_, by simp; omega⟩
        · intro r hr
          rcases List.mem_append.mp hr with h3 | h3
          · obtain ⟨a, b, n, hn⟩ := hb r h3
            exact ⟨a, b, n, by simp [hn]⟩
          · simp at h3
            subst h3
            exact ⟨rfl, by simp; omega, n0, by simp⟩
        · intro l1 r l2 heq hne
          exact key l1 r l2 heq (fun m1 m2 hm hm1 => hc m1 r m2 hm (hm1 ▸ hne))
        · intro hok l1 r l2 heq
          exact key l1 r l2 heq (fun m1 m2 hm _ => hd hok m1 r m2 hm)
        · intro hok n k c hm hnow
          rcases List.mem_cons.mp hm with h3 | h3
          · cases h3; exact ⟨k0, rfl, by simp⟩
          · obtain ⟨k', hk', hn'⟩ := hd' hok n k c h3 hnow
            exact ⟨k', hk', by simp [hn']⟩
        · intro hbad
          obtain ⟨r, l, e1, e2⟩ := he hbad
          exact ⟨r, l ++ [⟨k0, c0, code⟩], by simp [e1], by simpa using e2⟩
        · intro hpa
          obtain ⟨n, c, hm, hn⟩ := hp hpa
          exact ⟨n, c, by simp [hm], hn⟩
      · rw [if_neg h2]
        refine ⟨[⟨k0, c0, code⟩], rfl, ?_, ?_, fun h => absurd rfl h, fun h => (nomatch h), ?_, fun h => (nomatch h), by simp⟩
        · intro r hr
          simp at hr
          subst hr
          exact ⟨rfl, by simp; omega, n0, by simp⟩
        · intro l1 r l2 heq hne
          cases l1 with
          | nil => exact absurd rfl hne
          | cons a l1 => simp at heq
        · intro _
          exact ⟨_, [], rfl, by simpa using h2⟩

/-! ## C107 -/

/-- C107. What one run does, whatever the server answers. -/
theorem revoke_all_run (sort : List Item → List Item)
    (hsort : ∀ l, (sort l).Perm l) (env : Env) (reason : String) (cache : Cache) :
    let r := revokeAll sort env reason cache
    -- every request names a certificate in the cache that has not expired, is signed with its key and
    -- gives the reason that was asked for; there are no more requests than entries
    (∀ q ∈ r.requests, Spec.Reason reason q.reason ∧ env.now ≤ q.cert.notAfter ∧
      ∃ n e, (n, e) ∈ cache ∧ n ≠ "acme_account+key" ∧ Spec.Holds e q.cert ∧ Spec.HasKey e q.key) ∧
    r.requests.length ≤ cache.length ∧
    -- nothing is sent after a refusal
    (∀ l1 q l2, r.requests = l1 ++ q :: l2 → l1 ≠ [] → env.server l2 q = true) ∧
    -- a run that fails leaves the cache as it was
    (r.ok = false → r.cache = cache) ∧
    -- an entry that is gone had expired, or the server accepted its revocation
    (∀ n e, (n, e) ∈ cache → (n, e) ∉ r.cache → r.ok = true ∧
      ∃ e' c, (n, e') ∈ cache ∧ Spec.Holds e' c ∧
        (c.notAfter < env.now ∨ ∃ q, Spec.Accepted env r.requests q ∧ q.cert = c ∧ Spec.HasKey e' q.key)) ∧
    -- nothing is added
    (∀ x ∈ r.cache, x ∈ cache) ∧
    -- only a broken private key makes it panic
    (r.panicked = true → r.ok = false ∧ ∃ n e c, (n, e) ∈ cache ∧ n ≠ "acme_account+key" ∧ Spec.Holds e c ∧
      env.now ≤ c.notAfter ∧ Spec.BrokenKey e) := by
  intro r
  have hlen : (sort (allCerts cache)).length ≤ cache.length := by
    rw [(hsort _).length_eq]
    exact List.length_filterMap_le ..
  have hr : revokeAll sort env reason cache = r := rfl
  clear_value r
  unfold revokeAll at hr
  have triv : ∀ b, r = ⟨cache, [], b, false⟩ → _ := fun b (h : r = ⟨cache, [], b, false⟩) =>
    (show (∀ q ∈ r.requests, Spec.Reason reason q.reason ∧ env.now ≤ q.cert.notAfter ∧
      ∃ n e, (n, e) ∈ cache ∧ n ≠ "acme_account+key" ∧ Spec.Holds e q.cert ∧ Spec.HasKey e q.key) ∧
    r.requests.length ≤ cache.length ∧
    (∀ l1 q l2, r.requests = l1 ++ q :: l2 → l1 ≠ [] → env.server l2 q = true) ∧
    (r.ok = false → r.cache = cache) ∧
    (∀ n e, (n, e) ∈ cache → (n, e) ∉ r.cache → r.ok = true ∧
      ∃ e' c, (n, e') ∈ cache ∧ Spec.Holds e' c ∧
        (c.notAfter < env.now ∨ ∃ q, Spec.Accepted env r.requests q ∧ q.cert = c ∧ Spec.HasKey e' q.key)) ∧
    (∀ x ∈ r.cache, x ∈ cache) ∧
    (r.panicked = true → r.ok = false ∧ ∃ n e c, (n, e) ∈ cache ∧ n ≠ "acme_account+key" ∧ Spec.Holds e c ∧
      env.now ≤ c.notAfter ∧ Spec.BrokenKey e) by
      rw [h]
      refine ⟨by simp, by simp, by simp, by simp, ?_, by simp, by simp⟩
      intro n e h1 h2
      exact absurd h1 h2)
  split at hr
  · exact triv _ hr.symm
  · rename_i code hcode
    split at hr
    · exact triv _ hr.symm
    · dsimp only at hr
      split at hr
      · exact triv _ hr.symm
      · split at hr
        · exact triv _ hr.symm
        · obtain ⟨new, ha, hb, hc, hd, hd', -, hp, hf⟩ := loop_spec env code (sort (allCerts cache)) []
          rw [List.append_nil] at ha
          have hreq : ∀ q ∈ new, Spec.Reason reason q.reason ∧ env.now ≤ q.cert.notAfter ∧
              ∃ n e, (n, e) ∈ cache ∧ n ≠ "acme_account+key" ∧ Spec.Holds e q.cert ∧ Spec.HasKey e q.key := by
            intro q hq
            obtain ⟨h1, h2, n, h3⟩ := hb q hq
            rw [(hsort _).mem_iff, mem_allCerts] at h3
            obtain ⟨h4, e, h5, h6⟩ := h3
            have := readEntry_some h6
            exact ⟨h1 ▸ (parseReason_iff ..).mp hcode, h2, n, e, h5, h4, this.2.1, this.2.2⟩
          have hc' : ∀ l1 q l2, new = l1 ++ q :: l2 → l1 ≠ [] → env.server l2 q = true := by
            intro l1 q l2 h1 h2
            have := hc l1 q l2 h1 h2
            rwa [List.append_nil] at this
          rw [ha] at hr
          split at hr
          · rename_i hpa
            subst hr
            refine ⟨hreq, by dsimp only; omega, hc', fun _ => rfl, ?_, fun _ h => h, fun _ => ⟨rfl, ?_⟩⟩
            · intro n e h1 h2
              exact absurd h1 h2
            · obtain ⟨n, c, hm, hn⟩ := hp hpa
              rw [(hsort _).mem_iff, mem_allCerts] at hm
              obtain ⟨h4, e, h5, h6⟩ := hm
              have h7 := readEntry_some h6
              exact ⟨n, e, c, h5, h4, h7.2.1, hn, h7.2.2⟩
          · rename_i hnp
            split at hr
            · subst hr
              refine ⟨hreq, by dsimp only; omega, hc', fun _ => rfl, ?_, fun _ h => h, by simp⟩
              intro n e h1 h2
              exact absurd h1 h2
            · rename_i hok
              split at hr
              · subst hr
                refine ⟨hreq, by dsimp only; omega, hc', fun _ => rfl, ?_, fun _ h => h, by simp⟩
                intro n e h1 h2
                exact absurd h1 h2
              · subst hr
                refine ⟨hreq, by dsimp only; omega, hc', fun h => by simp at h, ?_,
                  fun x hx => (List.mem_filter.mp hx).1, by simp⟩
                intro n e h1 h2
                refine ⟨rfl, ?_⟩
                rw [List.mem_filter, not_and] at h2
                have h2 := h2 h1
                simp only [List.contains_eq_mem, Bool.not_eq_true', decide_eq_false_iff_not, Decidable.not_not,
                  List.mem_map] at h2
                obtain ⟨⟨n', k, c⟩, h3, h4⟩ := h2
                dsimp only at h4
                subst h4
                have h3' := h3
                rw [(hsort _).mem_iff, mem_allCerts] at h3'
                obtain ⟨h4, e', h5, h6⟩ := h3'
                have h7 := readEntry_some h6
                refine ⟨e', c, h5, h7.2.1, ?_⟩
                by_cases h8 : c.notAfter < env.now
                · exact Or.inl h8
                · right
                  have hl : (loop env code (sort (allCerts cache)) []).2 = .done := by
                    cases hx : (loop env code (sort (allCerts cache)) []).2 with
                    | done => rfl
                    | refused => exact absurd hx hok
                    | panic => exact absurd hx hnp
                  obtain ⟨k', rfl, h9⟩ := hd' hl _ k c h3 (by omega)
                  obtain ⟨l1, l2, h10⟩ := List.append_of_mem h9
                  have := hd hok l1 _ l2 h10
                  rw [List.append_nil] at this
                  exact ⟨_, ⟨l1, l2, h10, this⟩, rfl, h7.2.2⟩

/-- C107. When a run succeeds, every certificate in the cache that has not expired was revoked, for
the reason asked for, and none of them is left. Missing: entries that hold a certificate but whose
private key is missing or not for signing, or that cannot be read; they are skipped. -/
theorem revoke_all_partial (sort : List Item → List Item)
    (hsort : ∀ l, (sort l).Perm l) (env : Env) (reason : String) (cache : Cache)
    (hok : (revokeAll sort env reason cache).ok = true) (n : String) (e : Entry) (c : Cert)
    (he : (n, e) ∈ cache) (hn : n ≠ "acme_account+key") (hc : Spec.Holds e c) (hu : Spec.Usable e) :
    (env.now ≤ c.notAfter → ∃ q, Spec.Accepted env (revokeAll sort env reason cache).requests q ∧
      q.cert = c ∧ Spec.Reason reason q.reason ∧ Spec.HasKey e q.key) ∧
    ∀ e', (n, e') ∉ (revokeAll sort env reason cache).cache := by
  obtain ⟨k, hk, hkey⟩ := readEntry_usable hu hc
  have hm : (n, k, c) ∈ sort (allCerts cache) := by
    rw [(hsort _).mem_iff, mem_allCerts]
    exact ⟨hn, e, he, hk⟩
  unfold revokeAll at hok ⊢
  split at hok
  · cases hok
  · rename_i code hcode
    split at hok
    · cases hok
    · rename_i h1
      rw [if_neg h1]
      dsimp only at hok ⊢
      split at hok
      · rename_i h2; rw [h2] at hm; cases hm
      · rename_i h2
        rw [if_neg h2]
        split at hok
        · cases hok
        · rename_i h3
          rw [if_neg h3]
          split at hok
          · cases hok
          · rename_i h4
            rw [if_neg h4]
            split at hok
            · cases hok
            · rename_i h5
              rw [if_neg h5]
              split at hok
              · cases hok
              · rename_i h6
                rw [if_neg h6]
                dsimp only
                obtain ⟨new, ha, hb, hc, hd, hd', -, -, hf⟩ := loop_spec env code (sort (allCerts cache)) []
                rw [List.append_nil] at ha
                have hl : (loop env code (sort (allCerts cache)) []).2 = .done := by
                  cases hx : (loop env code (sort (allCerts cache)) []).2 with
                  | done => rfl
                  | refused => exact absurd hx h5
                  | panic => exact absurd hx h4
                constructor
                · intro hnow
                  obtain ⟨k', rfl, h9⟩ := hd' hl n k c hm hnow
                  obtain ⟨l1, l2, h10⟩ := List.append_of_mem h9
                  have := hd h5 l1 _ l2 h10
                  rw [List.append_nil] at this
                  rw [ha]
                  exact ⟨_, ⟨l1, l2, h10, this⟩, rfl, (parseReason_iff ..).mp hcode, hkey⟩
                · intro e' he'
                  rw [List.mem_filter] at he'
                  have := he'.2
                  simp only [List.contains_eq_mem, Bool.not_eq_true', decide_eq_false_iff_not, List.mem_map,
                    not_exists, not_and] at this
                  exact this _ hm rfl

/-- The account key is a key, or no key at all. -/
def Spec.AccountReadable (env : Env) : Prop := ∃ b, env.account = some (some b) ∧ ¬ Spec.NotForSigning b

theorem accountOk_iff (env : Env) : accountOk env = true ↔ Spec.AccountReadable env := by
  unfold accountOk Spec.AccountReadable
  rcases h : env.account with _ | _ | b
  · simp
  · simp
  · simp [← parsed_invalid]

/-- C107. When a run succeeds: exactly if the reason is a known one, the cache can be listed, and
either it has no certificate that can be revoked, or the account key can be read, the server
refuses no request, the entries can be deleted and no private key is broken. -/
theorem revoke_all_ok_iff (sort : List Item → List Item)
    (hsort : ∀ l, (sort l).Perm l) (env : Env) (reason : String) (cache : Cache) :
    (revokeAll sort env reason cache).ok = true ↔
      (∃ n, Spec.Reason reason n) ∧ env.keysOk = true ∧
      ((∀ n e c, (n, e) ∈ cache → n ≠ "acme_account+key" → Spec.Holds e c → ¬ Spec.Usable e) ∨
        (Spec.AccountReadable env ∧ env.deleteOk = true ∧
          (∀ n e c, (n, e) ∈ cache → n ≠ "acme_account+key" → Spec.Holds e c → Spec.Usable e →
            env.now ≤ c.notAfter → ¬ Spec.BrokenKey e) ∧
          ∀ l1 q l2, (revokeAll sort env reason cache).requests = l1 ++ q :: l2 → env.server l2 q = true)) := by
  have hnil : sort (allCerts cache) = [] ↔
      ∀ n e c, (n, e) ∈ cache → n ≠ "acme_account+key" → Spec.Holds e c → ¬ Spec.Usable e := by
    constructor
    · intro h n e c h1 h2 h3 h4
      obtain ⟨k, hk, _⟩ := readEntry_usable h4 h3
      have : (n, k, c) ∈ sort (allCerts cache) := by
        rw [(hsort _).mem_iff, mem_allCerts]
        exact ⟨h2, e, h1, hk⟩
      rw [h] at this
      cases this
    · intro h
      rw [List.eq_nil_iff_forall_not_mem]
      rintro ⟨n, k, c⟩ hm
      rw [(hsort _).mem_iff, mem_allCerts] at hm
      obtain ⟨h1, e, h2, h3⟩ := hm
      have := readEntry_some h3
      exact h n e c h2 h1 this.2.1 this.1
  have hreason : (∃ n, Spec.Reason reason n) ↔ ∃ n, parseReason reason = some n :=
    exists_congr fun n => (parseReason_iff reason n).symm
  rw [← hnil, hreason, ← accountOk_iff]
  unfold revokeAll
  cases hp : parseReason reason with
  | none => simp
  | some code =>
    dsimp only
    cases h1 : env.keysOk with
    | false => simp
    | true =>
      simp only [Bool.not_true, Bool.false_eq_true, if_false]
      by_cases h2 : sort (allCerts cache) = []
      · simp [h2]
      · rw [if_neg h2]
        cases h3 : accountOk env with
        | false => simp [h2]
        | true =>
          simp only [Bool.not_true, Bool.false_eq_true, if_false]
          obtain ⟨new, ha, hb, hc, hd, hd', he, hpa, hf⟩ := loop_spec env code (sort (allCerts cache)) []
          rw [List.append_nil] at ha
          cases h4 : (loop env code (sort (allCerts cache)) []).2 with
          | panic =>
            rw [if_pos rfl]
            constructor
            · intro h; cases h
            · rintro ⟨_, _, h | ⟨_, _, h, _⟩⟩
              · exact absurd h h2
              · obtain ⟨n, c, hm, hn⟩ := hpa h4
                rw [(hsort _).mem_iff, mem_allCerts] at hm
                obtain ⟨h5, e, h6, h7⟩ := hm
                have h8 := readEntry_some h7
                exact absurd h8.2.2 (h n e c h6 h5 h8.2.1 h8.1 hn)
          | refused =>
            rw [if_neg (by simp), if_pos rfl]
            constructor
            · intro h; cases h
            · rintro ⟨_, _, h | ⟨_, _, _, h⟩⟩
              · exact absurd h h2
              · obtain ⟨q, l, h5, h6⟩ := he h4
                rw [ha, h5] at h
                have := h [] q l rfl
                rw [List.append_nil] at h6
                rw [h6] at this
                cases this
          | done =>
            rw [if_neg (by simp), if_neg (by simp)]
            cases h5 : env.deleteOk with
            | false => simp [h2]
            | true =>
              simp only [Bool.not_true, Bool.false_eq_true, if_false]
              refine ⟨fun _ => ⟨⟨_, rfl⟩, trivial, .inr ⟨trivial, trivial, ?_, ?_⟩⟩, fun _ => trivial⟩
              · intro n e c g1 g2 g3 g4 g5 g6
                obtain ⟨k, hk, hkey⟩ := readEntry_usable g4 g3
                have hm : (n, k, c) ∈ sort (allCerts cache) := by
                  rw [(hsort _).mem_iff, mem_allCerts]
                  exact ⟨g2, e, g1, hk⟩
                obtain ⟨k', rfl, -⟩ := hd' h4 n k c hm g5
                exact key_excl hkey g6
              · intro l1 q l2 h6
                rw [ha] at h6
                have := hd (by rw [h4]; simp) l1 q l2 h6
                rwa [List.append_nil] at this

/-- C107. Nothing is asked of the server if the reason is not a known one, or if the cache or the
account key cannot be read. -/
theorem revoke_all_no_requests (sort : List Item → List Item)
    (env : Env) (reason : String) (cache : Cache)
    (h : (∀ n, ¬ Spec.Reason reason n) ∨ env.keysOk = false ∨ ¬ Spec.AccountReadable env) :
    (revokeAll sort env reason cache).requests = [] := by
  rw [← accountOk_iff] at h
  unfold revokeAll
  split
  · rfl
  · rename_i code hcode
    rcases h with h | h | h
    · exact absurd ((parseReason_iff ..).1 hcode) (h code)
    · rw [if_pos (by simp [h])]
    · split
      · rfl
      · dsimp only
        split
        · rfl
        · rw [if_pos (by simp [h])]

/-- If the server accepts every request, the cache works and no private key is broken, the run succeeds. -/
theorem revoke_all_succeeds (sort : List Item → List Item) (hsort : ∀ l, (sort l).Perm l) (env : Env)
    (reason : String) (n : Nat) (hr : Spec.Reason reason n) (cache : Cache) (hs : ∀ l q, env.server l q = true)
    (h1 : env.keysOk = true) (h2 : Spec.AccountReadable env) (h3 : env.deleteOk = true)
    (h4 : ∀ n e, (n, e) ∈ cache → ¬ Spec.BrokenKey e) :
    (revokeAll sort env reason cache).ok = true :=
  (revoke_all_ok_iff sort hsort env reason cache).2
    ⟨⟨n, hr⟩, h1, .inr ⟨h2, h3, fun n e _ he _ _ _ _ => h4 n e he, fun _ q l2 _ => hs l2 q⟩⟩

/-- C107, violated: with one broken private key in the cache, beside a certificate that has not expired, revoking all
certificates ends with a panic, even if everything else works; nothing is deleted, and the certificates whose keys sort
after this one are not revoked. -/
theorem revoke_all_broken_violated (sort : List Item → List Item) (hsort : ∀ l, (sort l).Perm l) (env : Env)
    (reason : String) (n : Nat) (hr : Spec.Reason reason n) (cache : Cache) (hs : ∀ l q, env.server l q = true)
    (h1 : env.keysOk = true) (h2 : Spec.AccountReadable env)
    (name : String) (e : Entry) (c : Cert) (he : (name, e) ∈ cache) (hn : name ≠ "acme_account+key")
    (hc : Spec.Holds e c) (hu : Spec.Usable e) (hnow : env.now ≤ c.notAfter) (hb : Spec.BrokenKey e) :
    (revokeAll sort env reason cache).panicked = true ∧ (revokeAll sort env reason cache).cache = cache := by
  obtain ⟨k, hk, hkey⟩ := readEntry_usable hu hc
  have hm : (name, k, c) ∈ sort (allCerts cache) := by
    rw [(hsort _).mem_iff, mem_allCerts]
    exact ⟨hn, e, he, hk⟩
  have hne : sort (allCerts cache) ≠ [] := fun h => by rw [h] at hm; cases hm
  obtain ⟨new, -, -, -, -, hd', hre, -, -⟩ := loop_spec env n (sort (allCerts cache)) []
  have hl : (loop env n (sort (allCerts cache)) []).2 = .panic := by
    cases hx : (loop env n (sort (allCerts cache)) []).2 with
    | panic => rfl
    | done =>
      obtain ⟨k', rfl, -⟩ := hd' hx name k c hm hnow
      exact absurd hb (key_excl hkey)
    | refused =>
      obtain ⟨q, l, -, h⟩ := hre hx
      rw [hs] at h
      cases h
  unfold revokeAll
  rw [(parseReason_iff ..).mpr hr]
  dsimp only
  rw [if_neg (by simp [h1]), if_neg hne, if_neg (by simp [(accountOk_iff env).2 h2]), if_pos hl]
  exact ⟨rfl, rfl⟩

/-- Three private keys in the three formats, one that is not for signing, and one that is none. -/
def exKey (n : Nat) : KeyBytes := { pkcs8 := some (some n) }
def exKey1 (n : Nat) : KeyBytes := { sec1 := some n }
def exKey2 (n : Nat) : KeyBytes := { pkcs1 := some n }
def exOther : KeyBytes := { pkcs8 := some none }
def exBroken : KeyBytes := {}

/-- A cache with an account key, a challenge token, an expired and a current certificate, and one
whose private key is not for signing. -/
def exCache : Cache :=
  [("acme_account+key", some [.key (exKey 1)]), ("b+token", some [.other]),
   ("a", some [.key (exKey1 2), .cert (some ⟨1, 50⟩), .cert (some ⟨9, 999⟩)]),
   ("b", some [.key (exKey2 3), .cert (some ⟨2, 200⟩)]),
   ("c", some [.key exOther, .cert (some ⟨3, 200⟩)])]

def exEnv : Env := ⟨true, some (some (exKey 1)), 100, fun _ _ => true, true⟩

example : (revokeAll id exEnv "keyCompromise" exCache).ok = true ∧
    (revokeAll id exEnv "keyCompromise" exCache).requests = [⟨3, ⟨2, 200⟩, 1⟩] ∧
    (revokeAll id exEnv "keyCompromise" exCache).cache.map (·.1) = ["acme_account+key", "b+token", "c"] := by
  decide +kernel

/-- A broken key in an entry before the others. -/
example : (revokeAll id exEnv "keyCompromise" (("0", some [.key exBroken, .cert (some ⟨4, 200⟩)]) :: exCache)).panicked =
      true ∧
    (revokeAll id exEnv "keyCompromise" (("0", some [.key exBroken, .cert (some ⟨4, 200⟩)]) :: exCache)).requests = [] := by
  decide +kernel

/-- C107, violated: the run succeeds although a certificate of the cache was not revoked. -/
theorem revoke_all_violated : ∃ env cache n e c, (revokeAll id env "keyCompromise" cache).ok = true ∧
    (n, e) ∈ cache ∧ n ≠ "acme_account+key" ∧ Spec.Holds e c ∧ env.now ≤ c.notAfter ∧
    ∀ q ∈ (revokeAll id env "keyCompromise" cache).requests, q.cert ≠ c := by
  refine ⟨exEnv, exCache, "c", some [.key exOther, .cert (some ⟨3, 200⟩)], ⟨3, 200⟩, by decide +kernel, ?_,
    by decide, ⟨[.key exOther], [], rfl, by simp⟩, by decide, by decide +kernel⟩
  simp [exCache]

end Verif.RevokeAll
