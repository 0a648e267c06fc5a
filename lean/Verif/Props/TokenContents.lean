import Verif.Props.Token
/-
C94: exactly which claims each kind of token carries.
-/
namespace Verif.Token

namespace Spec

/-- What the login token says about a claim the proxy itself sets. -/
def LoginBase (hash : Str → Str) (cm : Cm) (now : Nat) (user email sid host : Str)
    (k : String) (v : Val) : Prop :=
  (k, v) ∈ [("iat", Val.num now), ("exp", .num (now + 72000)), ("iss", .str cm.issuer),
    ("aud", .str cm.issuer), ("sub", .str user), ("email", .str email),
    ("proxyauth", .str cm.issuer), ("provider", .str cm.provider), ("hhash", .str (hash host)),
    ("sid", .str sid)]

/-- The names of these claims. -/
def loginNames : List String :=
  ["iat", "exp", "iss", "aud", "sub", "email", "proxyauth", "provider", "hhash", "sid"]

/-- The audience of an ID token for a host: its URL, and the URL of its Unicode form if that is
different. -/
def IdAud (uni : Str → Option Str) (host : Str) (v : Val) : Prop :=
  (uni host = none ∨ uni host = some host) ∧ v = .str ("https://".toList ++ host ++ "/".toList) ∨
  ∃ u, uni host = some u ∧ u ≠ host ∧
    v = .list ["https://".toList ++ host ++ "/".toList, "https://".toList ++ u ++ "/".toList]

/-- The claims of the profile scope (OpenID Connect Core 5.4). -/
def profileNames : List String :=
  ["name", "family_name", "given_name", "middle_name", "nickname", "preferred_username",
   "profile", "picture", "website", "gender", "birthdate", "zoneinfo", "locale"]

/-- What an OpenID Connect token says when no rewrite rule touches the claim. -/
def OidcClaim (issuer : Str) (now : Nat) (q : AuthzReq) (user : Claims) (k : String) (v : Val) :
    Prop :=
  (k = "iat" ∧ v = .num now) ∨ (k = "exp" ∧ v = .num (now + 300)) ∨
  (k = "iss" ∧ v = .str issuer) ∨ (k = "aud" ∧ v = .str q.clientID) ∨
  (k = "sub" ∧ ∃ s, v = .str s ∧ (get user "sub" = some (.str s) ∨
    s = [] ∧ ∀ s, get user "sub" ≠ some (.str s))) ∨
  (k = "scope" ∧ v = .str ("openid".toList ++
    (if q.email then " email".toList else []) ++ (if q.profile then " profile".toList else []))) ∨
  (k = "nonce" ∧ q.nonce ≠ [] ∧ v = .str q.nonce) ∨
  (k = "email" ∧ q.email = true ∧
    (get user "email" = some v ∨ get user "email" = none ∧ v = .null)) ∨
  (k = "email_verified" ∧ q.email = true ∧ v = .bool true) ∨
  (k ∈ profileNames ∧ q.profile = true ∧ get user k = some v ∧ v ≠ .null)

end Spec

theorem addExtra_get (extra c : Claims) (k : String) :
    get (addExtra c extra) k = (get c k).or (get extra k) := by
  unfold addExtra
  induction extra generalizing c with
  | nil => simp [get_nil]
  | cons kv l ih =>
    rw [List.foldl_cons, ih]
    obtain ⟨k', v⟩ := kv
    rw [get_cons]
    by_cases hk : k = k'
    · subst hk
      rw [if_pos rfl]
      cases hc : get c k with
      | none => simp [get_set]
      | some w => simp [hc]
    · rw [if_neg hk]
      dsimp only
      split
      · rfl
      · rw [get_set_ne _ _ hk]

/-- C94: a login token carries the claims the proxy sets, with the values it sets, and every
other claim exactly as supplied by the identity provider. -/
theorem login_token_exact (hash : Str → Str) (cm : Cm) (now : Nat) (user email sid host : Str)
    (extra c : Claims) (h : authToken hash cm now user email sid host extra = some c)
    (k : String) (v : Val) :
    get c k = some v ↔ Spec.LoginBase hash cm now user email sid host k v ∨
      k ∉ Spec.loginNames ∧ get extra k = some v := by
  unfold authToken at h
  split at h
  · exact absurd h (by simp)
  · obtain rfl := Option.some.inj h
    rw [addExtra_get]
    by_cases hm : k ∈ Spec.loginNames
    · have hm0 := hm
      simp only [Spec.loginNames, List.mem_cons, List.not_mem_nil, or_false] at hm
      have key : ∀ w, get (baseClaims hash cm now user email sid host) k = some w →
          (∀ x, Spec.LoginBase hash cm now user email sid host k x ↔ x = w) →
          ((get (baseClaims hash cm now user email sid host) k).or (get extra k) = some v ↔
            Spec.LoginBase hash cm now user email sid host k v ∨
              k ∉ Spec.loginNames ∧ get extra k = some v) := by
        intro w h1 h2
        rw [h1, h2]
        simp only [Option.some_or, Option.some.injEq]
        constructor
        · exact fun h => Or.inl h.symm
        · rintro (h | h)
          · exact h.symm
          · exact absurd hm0 h.1
      rcases hm with rfl | rfl | rfl | rfl | rfl | rfl | rfl | rfl | rfl | rfl <;>
        exact key _ rfl (fun x => by simp [Spec.LoginBase, hour])
    · have h0 : get (baseClaims hash cm now user email sid host) k = none := by
        simp only [Spec.loginNames, List.mem_cons, List.not_mem_nil, or_false, not_or] at hm
        obtain ⟨h1, h2, h3, h4, h5, h6, h7, h8, h9, h10⟩ := hm
        unfold baseClaims
        rw [get_cons, if_neg h1, get_cons, if_neg h2, get_cons, if_neg h3, get_cons, if_neg h4,
          get_cons, if_neg h5, get_cons, if_neg h6, get_cons, if_neg h7, get_cons, if_neg h8,
          get_cons, if_neg h9, get_cons, if_neg h10, get_nil]
      rw [h0, Option.none_or]
      constructor
      · exact fun h => Or.inr ⟨hm, h⟩
      · rintro (h | h)
        · exact absurd (by
            simp only [Spec.LoginBase, List.mem_cons, Prod.mk.injEq, List.not_mem_nil,
              or_false] at h
            rcases h with ⟨rfl, _⟩ | ⟨rfl, _⟩ | ⟨rfl, _⟩ | ⟨rfl, _⟩ | ⟨rfl, _⟩ | ⟨rfl, _⟩ | ⟨rfl, _⟩ |
              ⟨rfl, _⟩ | ⟨rfl, _⟩ | ⟨rfl, _⟩ <;> simp [Spec.loginNames]) hm
        · exact h.2

theorem idAud_iff (uni : Str → Option Str) (host : Str) (v : Val) :
    Spec.IdAud uni host v ↔ audienceForToken uni host = v := by
  unfold Spec.IdAud audienceForToken audience
  cases uni host with
  | none => simp [eq_comm]
  | some u =>
    by_cases h : u = host
    · simp [h, eq_comm]
    · have h' : ¬ host = u := fun e => h e.symm
      simp [h, h', eq_comm]

/-- C94: an ID token carries its own time and the audience of the host it is for, never the
claims that only mean something to the proxy, and everything else as in the login token. -/
theorem id_token_exact (uni : Str → Option Str) (host : Str) (now : Nat) (auth : Claims)
    (k : String) (v : Val) :
    get (idToken uni host now auth) k = some v ↔
      k = "iat" ∧ v = .num now ∨ k = "aud" ∧ Spec.IdAud uni host v ∨
      k ∉ ["iat", "aud", "scope", "proxyauth", "source", "hhash"] ∧ get auth k = some v := by
  rw [idAud_iff]
  unfold idToken
  dsimp only
  rw [get_set, get_set, get_filter (fun k => !notCopied.contains k)]
  by_cases h1 : k = "aud"
  · subst h1; simp
  · by_cases h2 : k = "iat"
    · subst h2; simp [eq_comm]
    · simp only [h1, h2, if_false, false_and, false_or, List.mem_cons, List.not_mem_nil, or_false,
        notCopied, List.contains_eq_mem, Bool.not_eq_true', decide_eq_false_iff_not, not_or]
      by_cases h3 : k = "scope" ∨ k = "proxyauth" ∨ k = "source" ∨ k = "hhash"
      · rcases h3 with rfl | rfl | rfl | rfl <;> simp
      · simp only [not_or] at h3
        simp [h3]

theorem copyClaims_get (user out : Claims) (names : List String) (k : String) :
    get (copyClaims user out names) k =
      if k ∈ names ∧ get user k ≠ some .null then (get user k).or (get out k) else get out k := by
  unfold copyClaims
  induction names generalizing out with
  | nil => simp
  | cons n l ih =>
    rw [List.foldl_cons, ih]
    by_cases hk : k = n
    · subst hk
      cases hu : get user k with
      | none => simp
      | some w =>
        by_cases hw : w = .null
        · subst hw; simp
        · simp [get_set, hw]
    · cases get user n with
      | none => simp [hk]
      | some v =>
        by_cases hw : v = .null
        · subst hw; simp [hk]
        · simp [hw, get_set_ne _ _ hk, hk]

/-- The identity `checkCookies` attaches to a request (C40, C41 together; partial for the same
reasons as `login_cookie_partial` and `bearer_partial`): it is the identity of a login less than
20 hours ago with the issuer of this backend's provider, and it is attached only while every
"not before" time it carries has passed. -/
theorem identity_partial (w : World) (h : List Issue) (hv : Valid w h)
    (hr : NoRewrite ["iss", "proxyauth"] h) (cm : Cm) (ho : OtherIssuers cm h) (gen : Bool)
    (names : List Str) (now : Nat) (r : Req) (c : Claims)
    (hc : checkCookies w.uni (issued w h) cm gen names now r = .claims (some c)) :
    (r.bearer = some c ∨ r.authCookie = some c) ∧
    (∀ n, get c "nbf" = some (.num n) → n ≤ now) ∧
    ∃ cm' t user email sid host extra, Issue.login cm' t user email sid host extra ∈ h ∧
      cm'.issuer = cm.issuer ∧ get c "sub" = some (.str user) ∧
      get c "email" = some (.str email) ∧ user ≠ [] ∧ email ≠ [] ∧ now < t + 72000 := by
  have hr' : NoRewrite ["proxyauth"] h := fun iss rules now q user hm r hrm hx =>
    hr iss rules now q user hm r hrm (by
      simp only [List.mem_cons, List.not_mem_nil, or_false] at hx ⊢; exact Or.inr hx)
  have hnbf : ∀ n, timesOk now c = true → get c "nbf" = some (.num n) → n ≤ now := by
    intro n ht hn
    unfold timesOk at ht
    rw [hn] at ht
    simp only [Bool.and_eq_true, decide_eq_true_eq] at ht
    exact ht.2
  unfold checkCookies at hc
  split at hc
  · rename_i c' hb
    simp only [Outcome.claims.injEq, Option.some.injEq] at hc
    subst hc
    obtain ⟨tok, hb1, hb2⟩ := Option.bind_eq_some_iff.mp hb
    obtain ⟨rfl, cm', host', t, t0, user, email, sid, host0, extra, auth, -, -, -, k1, k2, k3, k4,
      k5, -, -, k6⟩ := bearer_partial w h hv hr cm ho r.host now tok _ hb2
    have ht : timesOk now c' = true := by
      unfold validateBearer at hb2
      cases hval : validate (issued w h) now c' with
      | none => rw [hval] at hb2; simp at hb2
      | some x => exact (validate_some hval).2.2
    refine ⟨Or.inl hb1, fun n => hnbf n ht, cm', t0, user, email, sid, host0, extra, k2, k1, k4,
      k5, ?_, ?_, k6⟩
    · exact (reserved_claims _ _ _ _ _ _ _ _ _ k3).2.2.2.2.2.2.2.2.2.2.2.1
    · exact (reserved_claims _ _ _ _ _ _ _ _ _ k3).2.2.2.2.2.2.2.2.2.2.2.2
  · split at hc
    · simp at hc
    · rename_i auth ha
      obtain ⟨tok, ha1, ha2⟩ := Option.bind_eq_some_iff.mp ha
      obtain ⟨rfl, t, user, email, sid, host, extra, k1, k2, k3, k4, k5⟩ :=
        login_cookie_partial w h hv hr' cm now tok _ ha2
      have hca : c = auth := by
        repeat' split at hc
        all_goals first
          | exact (Option.some.inj (Outcome.claims.inj hc)).symm
          | exact absurd hc (by simp)
      subst hca
      have hres := reserved_claims _ _ _ _ _ _ _ _ _ k2
      exact ⟨Or.inr ha1, fun n => hnbf n (validateAuthToken_some ha2).2.2.1, cm, t, user, email,
        sid, host, extra, k1, rfl, hres.2.2.2.2.1, hres.2.2.2.2.2.1, k3, k4, k5⟩

/-- Non-vacuity: the login cookie of the example history authenticates. -/
example : checkCookies Ex.w.uni (issued Ex.w [Ex.aLogin]) Ex.cm false [] 200
    ⟨"h".toList, none, some Ex.aTok, none⟩ = .claims (some Ex.aTok) := by decide +kernel

/-- The steps of `oidcToken`, named for the proofs. -/
private def subOf (user : Claims) : Str :=
  match get user "sub" with
  | some (.str s) => s
  | _ => []

private def base (issuer : Str) (now : Nat) (q : AuthzReq) (user : Claims) : Claims :=
  [("iat", .num now), ("exp", .num (now + 300)), ("iss", .str issuer),
   ("aud", .str q.clientID), ("sub", .str (subOf user)), ("scope", .str "openid".toList)]

private def nonceStep (n : Str) (c : Claims) : Claims :=
  if n = [] then c else set c "nonce" (.str n)

private def emailStep (e : Bool) (user c : Claims) : Claims :=
  if e then
    set (set c "email" ((get user "email").getD .null)) "email_verified" (.bool true)
  else c

private theorem oidcToken_eq (issuer : Str) (rules : List Rule) (now : Nat) (q : AuthzReq)
    (user : Claims) : oidcToken issuer rules now q user = rewrite rules user
      (set (if q.profile then copyClaims user
          (emailStep q.email user (nonceStep q.nonce (base issuer now q user))) profileClaims
        else emailStep q.email user (nonceStep q.nonce (base issuer now q user))) "scope"
        (.str ("openid".toList ++ (if q.email then " email".toList else []) ++
          (if q.profile then " profile".toList else [])))) := rfl

private theorem nonce_get (c : Claims) (n : Str) (k : String) :
    get (nonceStep n c) k = if k = "nonce" ∧ n ≠ [] then some (.str n) else get c k := by
  unfold nonceStep
  by_cases hn : n = []
  · simp only [hn, if_true, ne_eq, not_true, and_false, if_false]
  · rw [if_neg hn, get_set]
    simp only [hn, ne_eq, not_false_iff, and_true]

private theorem email_get (c user : Claims) (e : Bool) (k : String) :
    get (emailStep e user c) k =
      if e = true ∧ k = "email_verified" then some (.bool true)
      else if e = true ∧ k = "email" then some ((get user "email").getD .null)
      else get c k := by
  unfold emailStep
  cases e with
  | false => simp only [Bool.false_eq_true, if_false, false_and]
  | true =>
    simp only [if_true, true_and]
    rw [get_set]
    split
    · rfl
    · rw [get_set]

/-- C94: an OpenID Connect token carries, apart from the claims written by rewrite rules, exactly
the claims the requested scopes call for. -/
theorem oidc_token_exact (issuer : Str) (rules : List Rule) (now : Nat) (q : AuthzReq)
    (user : Claims) (k : String) (v : Val) (hr : ∀ r ∈ rules, r.output ≠ k) :
    get (oidcToken issuer rules now q user) k = some v ↔ Spec.OidcClaim issuer now q user k v := by
  by_cases hk : k ∈ ["iat", "exp", "iss", "aud", "sub", "scope", "nonce", "email",
      "email_verified"]
  · have hp : k ∉ profileClaims := by
      have : ∀ x ∈ ["iat", "exp", "iss", "aud", "sub", "scope", "nonce", "email",
        "email_verified"], x ∉ profileClaims := by decide +kernel
      exact this k hk
    have hp' : k ∉ Spec.profileNames := hp
    have hcopy : ∀ c, get (if q.profile = true then copyClaims user c profileClaims else c) k =
        get c k := by
      intro c
      split
      · exact get_copyClaims _ _ _ _ hp
      · rfl
    rw [oidcToken_eq, get_rewrite _ _ _ _ hr, get_set, hcopy, email_get, nonce_get]
    simp only [List.mem_cons, List.not_mem_nil, or_false] at hk
    unfold Spec.OidcClaim base
    generalize hs : subOf user = sub
    unfold subOf at hs
    rcases hk with rfl | rfl | rfl | rfl | rfl | rfl | rfl | rfl | rfl <;>
      simp only [hp', String.reduceEq, false_and, false_or, or_false, true_and, if_false, if_true,
        and_false, get_cons, get_nil, Option.some.injEq, and_true, Option.or_none]
    · exact eq_comm
    · exact eq_comm
    · exact eq_comm
    · exact eq_comm
    · constructor
      · rintro rfl
        refine ⟨sub, rfl, ?_⟩
        split at hs
        · rename_i h
          exact Or.inl (hs ▸ h)
        · rename_i h
          exact Or.inr ⟨hs.symm, fun s hs' => h s hs'⟩
      · rintro ⟨s, rfl, h | ⟨rfl, h⟩⟩
        · rw [h] at hs
          exact congrArg _ hs.symm
        · split at hs
          · rename_i h'
            exact absurd h' (h _)
          · exact congrArg _ hs.symm
    · exact eq_comm
    · by_cases hn : q.nonce = []
      · simp only [hn, ne_eq, not_true, if_false, false_and, reduceCtorEq]
      · simp only [hn, ne_eq, not_false_iff, if_true, true_and, Option.some.injEq]
        exact eq_comm
    · cases q.email <;> simp only [Bool.false_eq_true, if_false, if_true, false_and, true_and,
        reduceCtorEq, Option.some.injEq]
      cases get user "email" with
      | none => simp [eq_comm]
      | some w => simp
    · cases q.email <;> simp only [Bool.false_eq_true, if_false, if_true, false_and, true_and,
        reduceCtorEq, Option.some.injEq]
      exact eq_comm
  · by_cases hp : k ∈ profileClaims
    · have hp' : k ∈ Spec.profileNames := hp
      simp only [List.mem_cons, List.not_mem_nil, or_false, not_or] at hk
      obtain ⟨h1, h2, h3, h4, h5, h6, h7, h8, h9⟩ := hk
      rw [oidcToken_eq, get_rewrite _ _ _ _ hr, get_set, if_neg h6]
      unfold Spec.OidcClaim
      simp only [h1, h2, h3, h4, h5, h6, h7, h8, h9, false_and, false_or, hp', true_and]
      have hb : get (emailStep q.email user (nonceStep q.nonce (base issuer now q user))) k
          = none := by
        rw [email_get, nonce_get]
        unfold base
        simp only [h1, h2, h3, h4, h5, h6, h7, h8, h9, false_and, and_false, if_false, get_cons,
          get_nil]
      split
      · rename_i hq
        rw [copyClaims_get, hb, Option.or_none]
        simp only [hq, true_and, hp]
        by_cases hn : get user k = some .null
        · simp [hn, eq_comm]
        · simp only [ne_eq, hn, not_false_iff, if_true]
          exact ⟨fun h => ⟨h, fun e => hn (e ▸ h)⟩, fun h => h.1⟩
      · rename_i hq
        rw [hb]
        simp only [hq, Bool.false_eq_true, false_and, reduceCtorEq]
    · rw [oidc_get_none _ _ _ _ _ _ hr hk hp]
      have hp' : k ∉ Spec.profileNames := hp
      simp only [List.mem_cons, List.not_mem_nil, or_false, not_or] at hk
      obtain ⟨h1, h2, h3, h4, h5, h6, h7, h8, h9⟩ := hk
      unfold Spec.OidcClaim
      simp only [h1, h2, h3, h4, h5, h6, h7, h8, h9, hp', false_and, or_false, reduceCtorEq]

/-- Non-vacuity: a request for both scopes, no rewrite rules. -/
example : Spec.OidcClaim "iss".toList 10 ⟨"c".toList, "n".toList, true, true⟩
    [("sub", .str "u".toList), ("email", .str "u@x".toList), ("name", .str "U".toList)]
    "name" (.str "U".toList) ∧
    ¬ Spec.OidcClaim "iss".toList 10 ⟨"c".toList, "n".toList, true, false⟩
    [("sub", .str "u".toList), ("email", .str "u@x".toList), ("name", .str "U".toList)]
    "name" (.str "U".toList) := by
  rw [← oidc_token_exact _ [] _ _ _ _ _ (by simp), ← oidc_token_exact _ [] _ _ _ _ _ (by simp)]
  decide +kernel

/-- Non-vacuity: the identity provider sends its own `sub` and a `picture`. -/
example : ∃ c, authToken id ⟨"p".toList, "https://p/".toList⟩ 5 "u".toList "u@x".toList
      "s".toList "h".toList [("sub", .str "evil".toList), ("picture", .str "x".toList),
        ("hhash", .str "evil".toList)] = some c ∧
    get c "sub" = some (.str "u".toList) ∧ get c "picture" = some (.str "x".toList) ∧
    get (idToken (fun _ => none) "h".toList 6 c) "hhash" = none ∧
    get (idToken (fun _ => none) "h".toList 6 c) "picture" = some (.str "x".toList) :=
  ⟨_, rfl, by decide +kernel⟩

end Verif.Token
