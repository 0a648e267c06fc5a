import Verif.Model.Token

/-!
# C40-C43, C47: what each kind of token can be used for

The claims are about histories of token issuance: any number of tokens of every kind, issued by
every component, in any order. A presented token is arbitrary.
-/

namespace Verif.Token

/-! ## Association lists -/

theorem get_nil (k : String) : get [] k = none := rfl

theorem get_cons (k k' : String) (v : Val) (c : Claims) :
    get ((k, v) :: c) k' = if k' = k then some v else get c k' := by
  unfold get
  rw [List.lookup_cons]
  by_cases h : k' = k
  · subst h; simp
  · rw [if_neg h]
    have : (k' == k) = false := by simpa using h
    rw [this]

theorem get_filter (p : String → Bool) (c : Claims) (k : String) :
    get (c.filter fun kv => p kv.1) k = if p k then get c k else none := by
  induction c with
  | nil => simp [get]
  | cons a c ih =>
    obtain ⟨x, v⟩ := a
    rw [List.filter_cons]
    by_cases hx : p x = true
    · rw [if_pos hx, get_cons, get_cons, ih]
      by_cases hk : k = x
      · subst hk; simp [hx]
      · simp [hk]
    · rw [if_neg hx, ih, get_cons]
      by_cases hk : k = x
      · subst hk; simp [hx]
      · simp [hk]

theorem get_set (c : Claims) (k k' : String) (v : Val) :
    get (set c k v) k' = if k' = k then some v else get c k' := by
  unfold set
  rw [get_cons]
  have := get_filter (fun x => decide (x ≠ k)) c k'
  simp only [ne_eq, decide_not] at this ⊢
  rw [this]
  by_cases h : k' = k <;> simp [h]

theorem get_set_ne (c : Claims) {k k' : String} (v : Val) (h : k' ≠ k) :
    get (set c k v) k' = get c k' := by rw [get_set, if_neg h]

theorem get_addExtra (extra c : Claims) (k : String) (v : Val) (h : get c k = some v) :
    get (addExtra c extra) k = some v := by
  unfold addExtra
  induction extra generalizing c with
  | nil => exact h
  | cons a extra ih =>
    rw [List.foldl_cons]
    apply ih
    split
    · exact h
    · rename_i hn
      rw [get_set_ne _ _ ?_]
      · exact h
      · intro e
        subst e
        rw [h] at hn
        exact hn rfl

theorem get_addExtra_none (extra c : Claims) (k : String) (h : get c k = none) :
    get (addExtra c extra) k = get extra k := by
  unfold addExtra
  induction extra generalizing c with
  | nil => exact h
  | cons a extra ih =>
    obtain ⟨x, v⟩ := a
    rw [List.foldl_cons, get_cons]
    by_cases hk : k = x
    · subst hk
      rw [if_pos rfl, h]
      have hs : get (set c k v) k = some v := by rw [get_set, if_pos rfl]
      exact get_addExtra extra _ k v hs
    · rw [if_neg hk]
      apply ih
      split
      · exact h
      · rw [get_set_ne _ _ hk]; exact h

theorem get_rewrite (rules : List Rule) (buf out : Claims) (k : String)
    (h : ∀ r ∈ rules, r.output ≠ k) : get (rewrite rules buf out) k = get out k := by
  induction rules generalizing buf out with
  | nil => rfl
  | cons r rs ih =>
    unfold rewrite
    have hr := h r List.mem_cons_self
    have hrs : ∀ r ∈ rs, r.output ≠ k := fun x hx => h x (List.mem_cons_of_mem _ hx)
    split
    · exact ih _ _ hrs
    · rw [ih _ _ hrs, get_set_ne _ _ (Ne.symm hr)]

theorem get_copyClaims (user out : Claims) (names : List String) (k : String) (h : k ∉ names) :
    get (copyClaims user out names) k = get out k := by
  unfold copyClaims
  induction names generalizing out with
  | nil => rfl
  | cons n ns ih =>
    rw [List.foldl_cons, ih _ (fun hk => h (List.mem_cons_of_mem _ hk))]
    split
    · rfl
    · rfl
    · rw [get_set_ne]
      intro e
      exact h (e ▸ List.mem_cons_self)

/-! ## C47 -/

/-- Claims of a login token that belong to the proxy. -/
def Spec.reserved : List String :=
  ["iat", "exp", "iss", "aud", "sub", "email", "proxyauth", "provider", "hhash", "sid"]

/-- C47. Whatever the identity provider returns, in whatever order, the proxy's own claims have
the proxy's values; all other claims are the identity provider's. -/
theorem reserved_claims (hash : Str → Str) (cm : Cm) (now : Nat) (user email sid host : Str)
    (extra c : Claims) (h : authToken hash cm now user email sid host extra = some c) :
    get c "iss" = some (.str cm.issuer) ∧
    get c "aud" = some (.str cm.issuer) ∧
    get c "proxyauth" = some (.str cm.issuer) ∧
    get c "provider" = some (.str cm.provider) ∧
    get c "sub" = some (.str user) ∧
    get c "email" = some (.str email) ∧
    get c "sid" = some (.str sid) ∧
    get c "hhash" = some (.str (hash host)) ∧
    get c "iat" = some (.num now) ∧
    get c "exp" = some (.num (now + 72000)) ∧
    (∀ k, k ∉ Spec.reserved → get c k = get extra k) ∧ user ≠ [] ∧ email ≠ [] := by
  unfold authToken at h
  split at h
  · exact absurd h (by simp)
  · rename_i hne
    simp only [Option.some.injEq] at h
    subst h
    have hne' : user ≠ [] ∧ email ≠ [] := by simpa using hne
    refine ⟨?_, ?_, ?_, ?_, ?_, ?_, ?_, ?_, ?_, ?_, ?_, hne'.1, hne'.2⟩
    case refine_11 =>
      intro k hk
      apply get_addExtra_none
      simp only [Spec.reserved, List.mem_cons, List.not_mem_nil, or_false, not_or] at hk
      obtain ⟨h1, h2, h3, h4, h5, h6, h7, h8, h9, h10⟩ := hk
      simp only [baseClaims, get_cons, get_nil, h1, h2, h3, h4, h5, h6, h7, h8, h9, h10,
        if_false]
    all_goals
      apply get_addExtra
      rfl

/-- An identity provider that tries to change the subject, the provider and the expiration, and
adds a name. -/
example : authToken id ⟨"p".toList, "https://a/".toList⟩ 5 "u".toList "e@x".toList "s".toList
      "h".toList [("sub", .str "root".toList), ("provider", .str "q".toList),
        ("exp", .num 1000000), ("name", .str "Bob".toList)] =
    some (("name", .str "Bob".toList) ::
      baseClaims id ⟨"p".toList, "https://a/".toList⟩ 5 "u".toList "e@x".toList "s".toList
        "h".toList) := by rfl

/-! ## Histories of token issuance -/

/-- One token issued by the proxy, with everything that determines its claims. -/
inductive Issue where
  | login (cm : Cm) (now : Nat) (user email sid host : Str) (extra : Claims)
  | id (cm : Cm) (host : Str) (now : Nat) (auth : Claims)
  | url (email : Option Str) (url sid : Str)
  | oidc (issuer : Str) (rules : List Rule) (now : Nat) (q : AuthzReq) (user : Claims)

/-- The outside world: the hash and the IDNA conversion. -/
structure World where
  hash : Str → Str
  uni : Str → Option Str

def Issue.claims (w : World) : Issue → Claims
  | .login cm now user email sid host extra =>
    addExtra (baseClaims w.hash cm now user email sid host) extra
  | .id _ host now auth => idToken w.uni host now auth
  | .url email u sid => urlToken email u sid
  | .oidc issuer rules now q user => oidcToken issuer rules now q user

def issued (w : World) (h : List Issue) : List Claims := h.map (·.claims w)

/-- Histories, latest token first. A login token is the result of `SetAuthTokenCookie`; an ID
token is made by `checkCookies` from a login token that was valid at that time; URL tokens and
OpenID Connect tokens are unconstrained. -/
inductive Valid (w : World) : List Issue → Prop
  | nil : Valid w []
  | login (h : List Issue) (cm : Cm) (now : Nat) (user email sid host : Str) (extra c : Claims) :
      Valid w h → authToken w.hash cm now user email sid host extra = some c →
      Valid w (.login cm now user email sid host extra :: h)
  | id (h : List Issue) (cm : Cm) (host : Str) (now : Nat) (auth : Claims) :
      Valid w h → validateAuthToken (issued w h) cm now auth = some auth →
      Valid w (.id cm host now auth :: h)
  | url (h : List Issue) (email : Option Str) (url sid : Str) : Valid w h →
      Valid w (.url email url sid :: h)
  | oidc (h : List Issue) (issuer : Str) (rules : List Rule) (now : Nat) (q : AuthzReq)
      (user : Claims) : Valid w h → Valid w (.oidc issuer rules now q user :: h)

/-- No rewrite rule of a local OpenID Connect server outputs one of these claims. -/
def NoRewrite (ks : List String) (h : List Issue) : Prop :=
  ∀ iss rules now q user, Issue.oidc iss rules now q user ∈ h → ∀ r ∈ rules, r.output ∉ ks

theorem valid_login {w : World} {h : List Issue} (hv : Valid w h) {cm : Cm} {now : Nat}
    {user email sid host : Str} {extra : Claims}
    (hm : Issue.login cm now user email sid host extra ∈ h) :
    authToken w.hash cm now user email sid host extra =
      some ((Issue.login cm now user email sid host extra).claims w) := by
  induction hv with
  | nil => simp at hm
  | login h cm' now' user' email' sid' host' extra' c _ hc ih =>
    rcases List.mem_cons.1 hm with he | hm
    · injection he with e1 e2 e3 e4 e5 e6 e7
      subst e1 e2 e3 e4 e5 e6 e7
      unfold authToken at hc ⊢
      split at hc
      · exact absurd hc (by simp)
      · rename_i hn
        rw [if_neg hn]
        rfl
    · exact ih hm
  | id _ _ _ _ _ _ _ ih => exact ih (by simpa using hm)
  | url _ _ _ _ _ ih => exact ih (by simpa using hm)
  | oidc _ _ _ _ _ _ _ ih => exact ih (by simpa using hm)

theorem validate_some {is : List Claims} {now : Nat} {tok c : Claims}
    (h : validate is now tok = some c) : c = tok ∧ tok ∈ is ∧ timesOk now tok = true := by
  unfold validate at h
  split at h
  · rename_i hc
    simp only [Option.some.injEq] at h
    simp only [Bool.and_eq_true, List.contains_iff_mem] at hc
    exact ⟨h.symm, hc.1, hc.2⟩
  · exact absurd h (by simp)

/-- A token that is accepted has not expired and is in force, and whatever it has in place of these
times is a time. -/
theorem token_times {is : List Claims} {now : Nat} {tok c : Claims} (h : validate is now tok = some c) :
    (∀ v, get tok "exp" = some v → ∃ e, v = .num e ∧ now < e) ∧
    (∀ v, get tok "nbf" = some v → ∃ n, v = .num n ∧ n ≤ now) := by
  have ht := (validate_some h).2.2
  unfold timesOk at ht
  rw [Bool.and_eq_true] at ht
  refine ⟨fun v hv => ?_, fun v hv => ?_⟩
  · have h1 := ht.1
    rw [hv] at h1
    cases v <;> simp_all
  · have h1 := ht.2
    rw [hv] at h1
    cases v <;> simp_all

example : validate [[("exp", .num 5), ("nbf", .num 1)]] 3 [("exp", .num 5), ("nbf", .num 1)] =
    some [("exp", .num 5), ("nbf", .num 1)] ∧
    validate [[("exp", .str [])]] 3 [("exp", .str [])] = none := by decide +kernel

theorem validateAuthToken_some {is : List Claims} {cm : Cm} {now : Nat} {tok c : Claims}
    (h : validateAuthToken is cm now tok = some c) :
    c = tok ∧ tok ∈ is ∧ timesOk now tok = true ∧ get tok "iss" = some (.str cm.issuer) ∧
      audOk cm.issuer tok = true ∧ get tok "proxyauth" = some (.str cm.issuer) ∧
      get tok "provider" = some (.str cm.provider) := by
  unfold validateAuthToken at h
  cases hv : validate is now tok with
  | none => rw [hv] at h; simp at h
  | some c' =>
    rw [hv] at h
    obtain ⟨rfl, hm, ht⟩ := validate_some hv
    dsimp only at h
    split at h
    · exact absurd h (by simp)
    · rename_i h1
      split at h
      · exact absurd h (by simp)
      · rename_i h2
        simp only [Bool.not_eq_true', Bool.not_eq_false, Bool.and_eq_true, issOk,
          decide_eq_true_eq] at h1
        simp only [ne_eq, Bool.or_eq_true, decide_eq_true_eq, not_or, Decidable.not_not] at h2
        have : c = c' := by
          split at h
          · split at h
            · exact absurd h (by simp)
            · exact (Option.some.inj h).symm
          · exact absurd h (by simp)
        exact ⟨this, hm, ht, h1.1, h1.2, h2.1, h2.2⟩

theorem id_proxyauth (uni : Str → Option Str) (host : Str) (now : Nat) (auth : Claims) :
    get (idToken uni host now auth) "proxyauth" = none := by
  unfold idToken
  dsimp only
  rw [get_set_ne _ _ (by decide), get_set_ne _ _ (by decide),
    get_filter (fun k => !notCopied.contains k)]
  rfl

theorem url_get (email : Option Str) (url sid : Str) (k : String) (h1 : k ≠ "email")
    (h2 : k ≠ "url") (h3 : k ≠ "sid") : get (urlToken email url sid) k = none := by
  unfold urlToken
  dsimp only
  rw [get_set_ne _ _ h3, get_set_ne _ _ h2]
  cases email with
  | none => rfl
  | some e => rw [get_cons, if_neg h1, get_nil]

/-- Claims of an OpenID Connect token other than the ones `ServeAuthorization` sets itself. -/
theorem oidc_get_none (issuer : Str) (rules : List Rule) (now : Nat) (q : AuthzReq)
    (user : Claims) (k : String) (hr : ∀ r ∈ rules, r.output ≠ k)
    (hk : k ∉ ["iat", "exp", "iss", "aud", "sub", "scope", "nonce", "email", "email_verified"])
    (hp : k ∉ profileClaims) : get (oidcToken issuer rules now q user) k = none := by
  simp only [List.mem_cons, List.not_mem_nil, or_false, not_or] at hk
  obtain ⟨h1, h2, h3, h4, h5, h6, h7, h8, h9⟩ := hk
  unfold oidcToken
  dsimp only
  rw [get_rewrite _ _ _ _ hr, get_set_ne _ _ h6]
  have hbase : ∀ sub : Str, get
      ([("iat", .num now), ("exp", .num (now + 300)), ("iss", .str issuer),
        ("aud", .str q.clientID), ("sub", .str sub), ("scope", .str "openid".toList)] : Claims) k
        = none := by
    intro sub
    simp only [get_cons, get_nil, h1, h2, h3, h4, h5, h6, if_false]
  have hn : ∀ c : Claims, get c k = none →
      get (if q.nonce = [] then c else set c "nonce" (.str q.nonce)) k = none := by
    intro c hc
    split
    · exact hc
    · rw [get_set_ne _ _ h7]; exact hc
  have he : ∀ c : Claims, get c k = none →
      get (if q.email = true then
        set (set c "email" ((get user "email").getD .null)) "email_verified" (.bool true) else c) k = none := by
    intro c hc
    split
    · rw [get_set_ne _ _ h9, get_set_ne _ _ h8]; exact hc
    · exact hc
  split
  · rw [get_copyClaims _ _ _ _ hp]
    exact he _ (hn _ (hbase _))
  · exact he _ (hn _ (hbase _))

theorem oidc_iss (issuer : Str) (rules : List Rule) (now : Nat) (q : AuthzReq)
    (user : Claims) (hr : ∀ r ∈ rules, r.output ≠ "iss") :
    get (oidcToken issuer rules now q user) "iss" = some (.str issuer) := by
  unfold oidcToken
  dsimp only
  rw [get_rewrite _ _ _ _ hr, get_set_ne _ _ (by decide)]
  have hn : ∀ c : Claims, get c "iss" = some (.str issuer) →
      get (if q.nonce = [] then c else set c "nonce" (.str q.nonce)) "iss"
        = some (.str issuer) := by
    intro c hc
    split
    · exact hc
    · rw [get_set_ne _ _ (by decide)]; exact hc
  have he : ∀ c : Claims, get c "iss" = some (.str issuer) →
      get (if q.email = true then
        set (set c "email" ((get user "email").getD .null)) "email_verified" (.bool true) else c) "iss"
        = some (.str issuer) := by
    intro c hc
    split
    · rw [get_set_ne _ _ (by decide), get_set_ne _ _ (by decide)]; exact hc
    · exact hc
  split
  · rw [get_copyClaims _ _ _ _ (by decide)]
    exact he _ (hn _ rfl)
  · exact he _ (hn _ rfl)

/-! ## C40 -/

/-- C40 (partial: no rewrite rule of a local OpenID Connect server outputs the claim
"proxyauth", see `login_cookie_rewrite_violated`). A token is accepted as a login cookie by a
provider's cookie manager only if it is a token issued as a login cookie by that provider's
cookie manager, to a user with a non-empty identity, less than 20 hours ago. -/
theorem login_cookie_partial (w : World) (h : List Issue) (hv : Valid w h)
    (hr : NoRewrite ["proxyauth"] h) (cm : Cm) (now : Nat) (tok c : Claims)
    (ha : validateAuthToken (issued w h) cm now tok = some c) :
    c = tok ∧ ∃ t user email sid host extra,
      Issue.login cm t user email sid host extra ∈ h ∧
      authToken w.hash cm t user email sid host extra = some tok ∧
      user ≠ [] ∧ email ≠ [] ∧ now < t + 72000 := by
  obtain ⟨hc, hm, ht, hi, -, hpa, hpr⟩ := validateAuthToken_some ha
  refine ⟨hc, ?_⟩
  obtain ⟨i, hi', rfl⟩ := List.mem_map.1 hm
  cases i with
  | login cm' t user email sid host extra =>
    have hl := valid_login hv hi'
    obtain ⟨k1, -, -, k4, -, -, -, -, -, k10, -, kn, ke⟩ := reserved_claims _ _ _ _ _ _ _ _ _ hl
    rw [k1] at hi
    rw [k4] at hpr
    have hcm : cm' = cm := by
      cases cm'; cases cm
      simp only [Option.some.injEq, Val.str.injEq] at hi hpr
      subst hi hpr
      rfl
    subst hcm
    refine ⟨t, user, email, sid, host, extra, hi', hl, kn, ke, ?_⟩
    unfold timesOk at ht
    rw [k10] at ht
    simp only [Bool.and_eq_true, decide_eq_true_eq] at ht
    exact ht.1
  | id cm' host t auth =>
    exfalso
    rw [show (Issue.id cm' host t auth).claims w = idToken w.uni host t auth from rfl,
      id_proxyauth] at hpa
    simp at hpa
  | url email url sid =>
    exfalso
    rw [show (Issue.url email url sid).claims w = urlToken email url sid from rfl,
      url_get _ _ _ _ (by decide) (by decide) (by decide)] at hpa
    simp at hpa
  | oidc iss rules t q user =>
    exfalso
    have := hr iss rules t q user hi'
    rw [show (Issue.oidc iss rules t q user).claims w = oidcToken iss rules t q user from rfl,
      oidc_get_none _ _ _ _ _ _ (fun r hrm e => this r hrm (by simp [e])) (by decide)
        (by decide)] at hpa
    simp at hpa

namespace Ex

def w : World := { hash := fun s => s, uni := fun _ => none }
def cm : Cm := ⟨"p".toList, "https://login/".toList⟩
def cmOther : Cm := ⟨"q".toList, "https://login/".toList⟩

def aLogin : Issue := .login cm 100 "u".toList "u@x".toList "s1".toList "h".toList
  [("name", .str "Bob".toList)]
def aTok : Claims := aLogin.claims w
def anID : Issue := .id cm "h".toList 200 aTok
def aUrl : Issue := .url none "https://h/x".toList "s9".toList
def anOidc : Issue := .oidc "https://h/op".toList [] 150 ⟨"client".toList, [], true, true⟩ aTok
def hist : List Issue := [aUrl, anOidc, anID, aLogin]

theorem hist_valid : Valid w hist :=
  .url _ _ _ _ (.oidc _ _ _ _ _ _ (.id _ _ _ _ _ (.login _ _ _ _ _ _ _ _ aTok .nil rfl)
    (by decide +kernel)))

end Ex

/-- A history with all four kinds of tokens in which the login token authenticates and the
others do not. -/
example : Valid Ex.w Ex.hist ∧ NoRewrite ["proxyauth"] Ex.hist ∧
    validateAuthToken (issued Ex.w Ex.hist) Ex.cm 300 Ex.aTok = some Ex.aTok ∧
    validateAuthToken (issued Ex.w Ex.hist) Ex.cmOther 300 Ex.aTok = none ∧
    validateAuthToken (issued Ex.w Ex.hist) Ex.cm 300 (Ex.anID.claims Ex.w) = none := by
  refine ⟨Ex.hist_valid, ?_, by decide +kernel, by decide +kernel, by decide +kernel⟩
  intro iss rules now q user hm r hr
  simp only [Ex.hist, Ex.aUrl, Ex.anOidc, Ex.anID, Ex.aLogin, List.mem_cons, List.not_mem_nil,
    or_false, reduceCtorEq, false_or, Issue.oidc.injEq] at hm
  obtain ⟨-, rfl, -⟩ := hm
  simp at hr

/-- C40, the missing part. Rewrite rules may output any claim (oidc/server.go:483-484 and
config.go:1073-1087 place no restriction). With rules that set `iss`, `aud`, `proxyauth` and
`provider`, the token a local OpenID Connect server hands to its client is a login cookie. -/
theorem login_cookie_rewrite_violated :
    ∃ (h : List Issue) (cm : Cm) (tok : Claims), Valid Ex.w h ∧
      (∀ cm' t user email sid host extra, Issue.login cm' t user email sid host extra ∉ h) ∧
      validateAuthToken (issued Ex.w h) cm 150 tok = some tok := by
  let rule (k : String) (v : String) : Rule := { apply := fun _ => some v.toList, output := k }
  let i : Issue := .oidc "https://h/op".toList
    [rule "iss" "https://login/", rule "aud" "https://login/", rule "proxyauth" "https://login/",
     rule "provider" "p"] 100 ⟨"client".toList, [], true, false⟩
    [("sub", .str "u".toList), ("email", .str "u@x".toList)]
  refine ⟨[i], Ex.cm, i.claims Ex.w, .oidc _ _ _ _ _ _ .nil, ?_, by decide +kernel⟩
  intro cm' t user email sid host extra hm
  simp [i] at hm

/-! ## C41 -/

theorem append_cancel {a b c d : Str} (h : a ++ b ++ c = a ++ d ++ c) : b = d := by
  rw [List.append_assoc, List.append_assoc] at h
  exact List.append_cancel_right (List.append_cancel_left h)

theorem audience_inj {a b : Str} (h : audience a = audience b) : a = b := append_cancel h

/-- The two spellings of a host: as in the request, and with Unicode labels. -/
def Spec.SameHost (w : World) (h h' : Str) : Prop := h' = h ∨ w.uni h = some h'

theorem audOk_idToken {w : World} {host : Str} {now : Nat} {auth : Claims} {host' : Str}
    (h : audOk (audience host') (idToken w.uni host now auth) = true) :
    Spec.SameHost w host host' := by
  unfold audOk idToken at h
  dsimp only at h
  rw [get_set, if_pos rfl] at h
  unfold audienceForToken at h
  cases hu : w.uni host with
  | none =>
    rw [hu] at h
    simp only [decide_eq_true_eq] at h
    exact Or.inl (audience_inj h).symm
  | some u =>
    rw [hu] at h
    dsimp only at h
    split at h
    · rename_i a he
      split at he
      · simp only [Option.some.injEq, Val.str.injEq] at he
        simp only [decide_eq_true_eq] at h
        subst he
        exact Or.inl (audience_inj h).symm
      · simp at he
    · rename_i l he
      split at he
      · simp at he
      · simp only [Option.some.injEq, Val.list.injEq] at he
        subst he
        simp only [List.contains_iff_mem, List.mem_cons, List.not_mem_nil, or_false] at h
        rcases h with h | h
        · exact Or.inl (audience_inj h)
        · exact Or.inr (by rw [audience_inj h]; exact hu)
    · exact absurd h (by simp)

theorem get_idToken {uni : Str → Option Str} {host : Str} {now : Nat} {auth : Claims} {k : String}
    (h1 : k ∉ notCopied) (h2 : k ≠ "iat") (h3 : k ≠ "aud") :
    get (idToken uni host now auth) k = get auth k := by
  unfold idToken
  dsimp only
  rw [get_set_ne _ _ h3, get_set_ne _ _ h2, get_filter (fun k => !notCopied.contains k)]
  rw [if_pos]
  simpa using h1

/-- Every ID token descends from a login token of the same cookie manager. -/
theorem valid_id {w : World} {h : List Issue} (hv : Valid w h)
    (hr : NoRewrite ["proxyauth"] h) {cm : Cm} {host : Str} {now : Nat} {auth : Claims}
    (hm : Issue.id cm host now auth ∈ h) :
    ∃ t user email sid host0 extra, Issue.login cm t user email sid host0 extra ∈ h ∧
      authToken w.hash cm t user email sid host0 extra = some auth ∧ now < t + 72000 := by
  have tail : ∀ (i : Issue) (l : List Issue), NoRewrite ["proxyauth"] (i :: l) →
      NoRewrite ["proxyauth"] l :=
    fun i l h iss rules now q user hm => h iss rules now q user (List.mem_cons_of_mem _ hm)
  induction hv with
  | nil => simp at hm
  | login h _ _ _ _ _ _ _ _ _ _ ih =>
    obtain ⟨t, a, b, c, d, e, k1, k2⟩ := ih (tail _ _ hr) (by simpa using hm)
    exact ⟨t, a, b, c, d, e, List.mem_cons_of_mem _ k1, k2⟩
  | id h cm' host' now' auth' hv hval ih =>
    rcases List.mem_cons.1 hm with he | hm
    · injection he with e1 e2 e3 e4
      subst e1 e2 e3 e4
      obtain ⟨-, t, a, b, c, d, e, k1, k2, -, -, k3⟩ :=
        login_cookie_partial w h hv (tail _ _ hr) cm now auth auth hval
      exact ⟨t, a, b, c, d, e, List.mem_cons_of_mem _ k1, k2, k3⟩
    · obtain ⟨t, a, b, c, d, e, k1, k2⟩ := ih (tail _ _ hr) hm
      exact ⟨t, a, b, c, d, e, List.mem_cons_of_mem _ k1, k2⟩
  | url h _ _ _ _ ih =>
    obtain ⟨t, a, b, c, d, e, k1, k2⟩ := ih (tail _ _ hr) (by simpa using hm)
    exact ⟨t, a, b, c, d, e, List.mem_cons_of_mem _ k1, k2⟩
  | oidc h _ _ _ _ _ _ ih =>
    obtain ⟨t, a, b, c, d, e, k1, k2⟩ := ih (tail _ _ hr) (by simpa using hm)
    exact ⟨t, a, b, c, d, e, List.mem_cons_of_mem _ k1, k2⟩

/-- No local OpenID Connect server uses the issuer name of this cookie manager. (Cookie manager
issuers end with a slash, proxy.go:311; the issuer of a local server is its host followed by the
path prefix, proxy.go:511.) -/
def OtherIssuers (cm : Cm) (h : List Issue) : Prop :=
  ∀ iss rules now q user, Issue.oidc iss rules now q user ∈ h → iss ≠ cm.issuer

/-- C41 (partial: the provider's name is not compared, see `bearer_provider_violated`; no
rewrite rule outputs "iss" or "proxyauth" and no local OpenID Connect server has the same issuer
name). A bearer token authenticates a request for `host` only if it is an ID token that was
generated for this host from a login token of a cookie manager with the same issuer, and it
carries the identity of that login. -/
theorem bearer_partial (w : World) (h : List Issue) (hv : Valid w h)
    (hr : NoRewrite ["iss", "proxyauth"] h) (cm : Cm) (ho : OtherIssuers cm h)
    (host : Str) (now : Nat) (tok c : Claims)
    (ha : validateBearer (issued w h) cm host now tok = some c) :
    c = tok ∧ ∃ cm' host' t t0 user email sid host0 extra auth,
      Issue.id cm' host' t auth ∈ h ∧ tok = idToken w.uni host' t auth ∧
      Spec.SameHost w host' host ∧ cm'.issuer = cm.issuer ∧
      Issue.login cm' t0 user email sid host0 extra ∈ h ∧
      authToken w.hash cm' t0 user email sid host0 extra = some auth ∧
      get tok "sub" = some (.str user) ∧ get tok "email" = some (.str email) ∧
      get tok "sid" = some (.str sid) ∧ get tok "provider" = some (.str cm'.provider) ∧
      now < t0 + 72000 := by
  have hr' : NoRewrite ["proxyauth"] h := fun iss rules now q user hm r hrm hx =>
    hr iss rules now q user hm r hrm (by
      simp only [List.mem_cons, List.not_mem_nil, or_false] at hx ⊢; exact Or.inr hx)
  unfold validateBearer at ha
  cases hval : validate (issued w h) now tok with
  | none => rw [hval] at ha; simp at ha
  | some c' =>
    rw [hval] at ha
    obtain ⟨rfl, hm, ht⟩ := validate_some hval
    dsimp only at ha
    split at ha
    · exact absurd ha (by simp)
    · rename_i h1
      split at ha
      · exact absurd ha (by simp)
      · rename_i h2
        simp only [Bool.not_eq_true', Bool.not_eq_false, Bool.and_eq_true, issOk,
          decide_eq_true_eq] at h1
        refine ⟨(Option.some.inj ha).symm, ?_⟩
        obtain ⟨i, hi, rfl⟩ := List.mem_map.1 hm
        cases i with
        | login cm' t user email sid host0 extra =>
          exfalso
          have := reserved_claims _ _ _ _ _ _ _ _ _ (valid_login hv hi)
          rw [this.2.2.1] at h2
          exact h2 rfl
        | url email url sid =>
          exfalso
          have := h1.1
          rw [show (Issue.url email url sid).claims w = urlToken email url sid from rfl,
            url_get _ _ _ _ (by decide) (by decide) (by decide)] at this
          simp at this
        | oidc iss rules t q user =>
          exfalso
          have := h1.1
          have hrr := hr iss rules t q user hi
          rw [show (Issue.oidc iss rules t q user).claims w = oidcToken iss rules t q user
            from rfl, oidc_iss _ _ _ _ _ (fun r hrm e => hrr r hrm (by simp [e]))] at this
          simp only [Option.some.injEq, Val.str.injEq] at this
          exact ho iss rules t q user hi this
        | id cm' host' t auth =>
          obtain ⟨t0, user, email, sid, host0, extra, hl, hauth, -⟩ := valid_id hv hr' hi
          obtain ⟨k1, -, -, k4, k5, k6, k7, -, -, k10, -⟩ :=
            reserved_claims _ _ _ _ _ _ _ _ _ hauth
          have e : (Issue.id cm' host' t auth).claims w = idToken w.uni host' t auth := rfl
          rw [e] at h1 ht ⊢
          have hiss := h1.1
          rw [get_idToken (by decide) (by decide) (by decide), k1] at hiss
          simp only [Option.some.injEq, Val.str.injEq] at hiss
          refine ⟨cm', host', t, t0, user, email, sid, host0, extra, auth, hi, rfl,
            audOk_idToken h1.2, hiss, hl, hauth, ?_, ?_, ?_, ?_, ?_⟩
          · rw [get_idToken (by decide) (by decide) (by decide), k5]
          · rw [get_idToken (by decide) (by decide) (by decide), k6]
          · rw [get_idToken (by decide) (by decide) (by decide), k7]
          · rw [get_idToken (by decide) (by decide) (by decide), k4]
          · unfold timesOk at ht
            rw [get_idToken (by decide) (by decide) (by decide), k10] at ht
            simp only [Bool.and_eq_true, decide_eq_true_eq] at ht
            exact ht.1

theorem Ex.hist_noRewrite (ks : List String) : NoRewrite ks Ex.hist := by
  intro iss rules now q user hm r hr
  simp only [Ex.hist, Ex.aUrl, Ex.anOidc, Ex.anID, Ex.aLogin, List.mem_cons, List.not_mem_nil,
    or_false, reduceCtorEq, false_or, Issue.oidc.injEq] at hm
  obtain ⟨-, rfl, -⟩ := hm
  simp at hr

theorem Ex.hist_otherIssuers : OtherIssuers Ex.cm Ex.hist := by
  intro iss rules now q user hm e
  simp only [Ex.hist, Ex.aUrl, Ex.anOidc, Ex.anID, Ex.aLogin, List.mem_cons, List.not_mem_nil,
    or_false, reduceCtorEq, false_or, Issue.oidc.injEq] at hm
  rw [hm.1] at e
  revert e
  decide

/-- In the history above the ID token authenticates as bearer token for its host; it does not for
another host, and the login token does not. -/
example : Valid Ex.w Ex.hist ∧ NoRewrite ["iss", "proxyauth"] Ex.hist ∧
    OtherIssuers Ex.cm Ex.hist ∧
    (validateBearer (issued Ex.w Ex.hist) Ex.cm "h".toList 300 (Ex.anID.claims Ex.w)).isSome ∧
    validateBearer (issued Ex.w Ex.hist) Ex.cm "g".toList 300 (Ex.anID.claims Ex.w) = none ∧
    validateBearer (issued Ex.w Ex.hist) Ex.cm "h".toList 300 Ex.aTok = none ∧
    validateBearer (issued Ex.w Ex.hist) Ex.cm "login".toList 300 Ex.aTok = none :=
  ⟨Ex.hist_valid, Ex.hist_noRewrite _, Ex.hist_otherIssuers, by decide +kernel,
    by decide +kernel, by decide +kernel, by decide +kernel⟩

/-- C41, the missing part. `ValidateAuthorizationHeader` does not look at the provider: an ID
token generated for a login with provider "p" is accepted by provider "q" if both have their
callbacks on the same host. -/
theorem bearer_provider_violated :
    ∃ (h : List Issue) (cm cm' : Cm) (host : Str) (tok : Claims), Valid Ex.w h ∧
      NoRewrite ["iss", "proxyauth"] h ∧ OtherIssuers cm h ∧
      get tok "provider" = some (.str cm'.provider) ∧ cm'.provider ≠ cm.provider ∧
      validateBearer (issued Ex.w h) cm host 300 tok = some tok :=
  ⟨Ex.hist, Ex.cmOther, Ex.cm, "h".toList, Ex.anID.claims Ex.w, Ex.hist_valid,
    Ex.hist_noRewrite _, Ex.hist_otherIssuers, by decide +kernel, by decide, by decide +kernel⟩

/-! ## C42 -/

theorem validateIDToken_true {is : List Claims} {cm : Cm} {host : Str} {now : Nat}
    {auth tok : Claims} (h : validateIDToken is cm host now auth tok = true) :
    tok ∈ is ∧ timesOk now tok = true ∧ get tok "iss" = some (.str cm.issuer) ∧
      audOk (audience host) tok = true ∧ get tok "sub" = get auth "sub" ∧
      get tok "sid" = get auth "sid" := by
  unfold validateIDToken at h
  cases hval : validate is now tok with
  | none => rw [hval] at h; simp at h
  | some c =>
    rw [hval] at h
    obtain ⟨rfl, hm, ht⟩ := validate_some hval
    simp only [Bool.and_eq_true, issOk, decide_eq_true_eq] at h
    exact ⟨hm, ht, h.1.1.1, h.1.1.2, h.1.2, h.2⟩

/-- C42 (partial: the host is not the one in the provider's issuer name, where the login token
itself is accepted too, see `id_cookie_violated`; rewrite rules and OpenID Connect issuers as in
C41). A cookie counts as the ID token of a request only if it is an ID token generated for this
host, from a login of the same user in the same session as the current login token. -/
theorem id_cookie_partial (w : World) (h : List Issue) (hv : Valid w h)
    (hr : NoRewrite ["iss", "proxyauth"] h) (cm : Cm) (ho : OtherIssuers cm h)
    (host : Str) (hhost : audience host ≠ cm.issuer) (now : Nat) (authTok auth tok : Claims)
    (hauth : validateAuthToken (issued w h) cm now authTok = some auth)
    (ha : validateIDToken (issued w h) cm host now auth tok = true) :
    ∃ cm' host' t t0 user email sid host0 extra auth',
      Issue.id cm' host' t auth' ∈ h ∧ tok = idToken w.uni host' t auth' ∧
      Spec.SameHost w host' host ∧ cm'.issuer = cm.issuer ∧
      Issue.login cm' t0 user email sid host0 extra ∈ h ∧
      authToken w.hash cm' t0 user email sid host0 extra = some auth' ∧
      get auth "sub" = some (.str user) ∧ get auth "sid" = some (.str sid) := by
  have hr' : NoRewrite ["proxyauth"] h := fun iss rules now q user hm r hrm hx =>
    hr iss rules now q user hm r hrm (by
      simp only [List.mem_cons, List.not_mem_nil, or_false] at hx ⊢; exact Or.inr hx)
  obtain ⟨hm, ht, hiss, haud, hsub, hsid⟩ := validateIDToken_true ha
  obtain ⟨i, hi, rfl⟩ := List.mem_map.1 hm
  cases i with
  | login cm' t user email sid host0 extra =>
    exfalso
    have := reserved_claims _ _ _ _ _ _ _ _ _ (valid_login hv hi)
    rw [this.1] at hiss
    simp only [Option.some.injEq, Val.str.injEq] at hiss
    unfold audOk at haud
    rw [this.2.1] at haud
    simp only [decide_eq_true_eq] at haud
    exact hhost (by rw [← haud, hiss])
  | url email url sid =>
    exfalso
    rw [show (Issue.url email url sid).claims w = urlToken email url sid from rfl,
      url_get _ _ _ _ (by decide) (by decide) (by decide)] at hiss
    simp at hiss
  | oidc iss rules t q user =>
    exfalso
    have hrr := hr iss rules t q user hi
    rw [show (Issue.oidc iss rules t q user).claims w = oidcToken iss rules t q user
      from rfl, oidc_iss _ _ _ _ _ (fun r hrm e => hrr r hrm (by simp [e]))] at hiss
    simp only [Option.some.injEq, Val.str.injEq] at hiss
    exact ho iss rules t q user hi hiss
  | id cm' host' t auth' =>
    obtain ⟨t0, user, email, sid, host0, extra, hl, hauth', -⟩ := valid_id hv hr' hi
    obtain ⟨k1, -, -, -, k5, -, k7, -⟩ := reserved_claims _ _ _ _ _ _ _ _ _ hauth'
    have e : (Issue.id cm' host' t auth').claims w = idToken w.uni host' t auth' := rfl
    rw [e] at hiss haud hsub hsid ⊢
    rw [get_idToken (by decide) (by decide) (by decide), k1] at hiss
    rw [get_idToken (by decide) (by decide) (by decide), k5] at hsub
    rw [get_idToken (by decide) (by decide) (by decide), k7] at hsid
    simp only [Option.some.injEq, Val.str.injEq] at hiss
    exact ⟨cm', host', t, t0, user, email, sid, host0, extra, auth', hi, rfl,
      audOk_idToken haud, hiss, hl, hauth', hsub.symm, hsid.symm⟩

example : Valid Ex.w Ex.hist ∧ audience "h".toList ≠ Ex.cm.issuer ∧
    validateAuthToken (issued Ex.w Ex.hist) Ex.cm 300 Ex.aTok = some Ex.aTok ∧
    validateIDToken (issued Ex.w Ex.hist) Ex.cm "h".toList 300 Ex.aTok (Ex.anID.claims Ex.w)
      = true :=
  ⟨Ex.hist_valid, by decide, by decide +kernel, by decide +kernel⟩

/-- C42, the missing part. `ValidateIDTokenCookie` does not require the claim "proxyauth" to be
absent: on the issuer's own host the login token is accepted as ID token, and no ID token is
generated. -/
theorem id_cookie_violated :
    ∃ (h : List Issue) (cm : Cm) (host : Str) (tok : Claims), Valid Ex.w h ∧
      (∀ cm' host' t auth, Issue.id cm' host' t auth ∉ h) ∧
      validateAuthToken (issued Ex.w h) cm 300 tok = some tok ∧
      validateIDToken (issued Ex.w h) cm host 300 tok tok = true := by
  refine ⟨[Ex.aLogin], Ex.cm, "login".toList, Ex.aTok,
    .login _ _ _ _ _ _ _ _ Ex.aTok .nil rfl, ?_, by decide +kernel, by decide +kernel⟩
  intro cm' host' t auth hm
  simp [Ex.aLogin] at hm

/-- C42, the second half: with a valid login cookie, ID tokens enabled and no bearer token, a
request for one of the backend's names either carries a valid ID token and continues with the
login's claims, or is answered with a new ID token made from the login cookie. -/
theorem id_cookie_refreshed (w : World) (is : List Claims) (cm : Cm) (names : List Str)
    (now : Nat) (r : Req) (authTok auth : Claims) (e : Str)
    (hb : r.bearer = none) (hc : r.authCookie = some authTok)
    (ha : validateAuthToken is cm now authTok = some auth)
    (he : get auth "email" = some (.str e)) (hne : e ≠ []) (hn : r.host ∈ names) :
    checkCookies w.uni is cm true names now r =
      if ∃ t, r.idCookie = some t ∧ validateIDToken is cm r.host now auth t = true
      then .claims (some auth) else .newIDToken (idToken w.uni r.host now auth) := by
  unfold checkCookies
  rw [hb, hc]
  simp only [Option.bind_none, Option.bind_some, ha, he, Bool.not_true, Bool.false_eq_true,
    if_false]
  rw [if_neg hne, if_neg (by simp [hn])]
  cases r.idCookie with
  | none => simp
  | some t => simp

/-- ID tokens are made for backends that ask for them, for their own names, and for requests with a
valid login cookie that has an email address, without a valid bearer token. -/
theorem id_token_made (w : World) (is : List Claims) (cm : Cm) (gen : Bool) (names : List Str)
    (now : Nat) (r : Req) (c : Claims) (h : checkCookies w.uni is cm gen names now r = .newIDToken c) :
    gen = true ∧ r.host ∈ names ∧ r.bearer.bind (validateBearer is cm r.host now) = none ∧
      ∃ auth e, r.authCookie.bind (validateAuthToken is cm now) = some auth ∧
        get auth "email" = some (.str e) ∧ e ≠ [] ∧ c = idToken w.uni r.host now auth := by
  unfold checkCookies at h
  split at h
  · exact (nomatch h)
  rename_i hb
  split at h
  · exact (nomatch h)
  rename_i auth ha
  split at h
  · rename_i e he
    split at h
    · exact (nomatch h)
    rename_i hne
    split at h
    · exact (nomatch h)
    rename_i hg
    split at h
    · exact (nomatch h)
    rename_i hn
    split at h
    · split at h
      · exact (nomatch h)
      · cases h
        exact ⟨by simpa using hg, by simpa using hn, hb, auth, e, ha, he, hne, rfl⟩
    · split at h
      · exact (nomatch h)
      · cases h
        exact ⟨by simpa using hg, by simpa using hn, hb, auth, e, ha, he, hne, rfl⟩
  · exact (nomatch h)

/-- The new ID token is accepted when the browser comes back with it, and carries the user, the
email address, the session and the expiration of the login token. -/
theorem new_id_token_accepted (w : World) (h : List Issue) (hv : Valid w h)
    (hr : NoRewrite ["proxyauth"] h) (cm : Cm) (host : Str) (now : Nat) (authTok auth : Claims)
    (ha : validateAuthToken (issued w h) cm now authTok = some auth)
    (later : Nat) (hl : validateAuthToken (issued w h) cm later authTok = some auth) :
    let i : Issue := .id cm host now auth
    Valid w (i :: h) ∧
    validateIDToken (issued w (i :: h)) cm host later auth (i.claims w) = true ∧
    (∀ k, k ∈ ["sub", "email", "sid", "exp", "provider", "iss"] →
      get (i.claims w) k = get auth k) := by
  intro i
  obtain ⟨rfl, -⟩ := login_cookie_partial w h hv hr cm now authTok auth ha
  have e : i.claims w = idToken w.uni host now auth := rfl
  refine ⟨.id _ _ _ _ _ hv ha, ?_, ?_⟩
  · obtain ⟨-, -, ht, hiss, -⟩ := validateAuthToken_some hl
    have htimes : timesOk later (i.claims w) = true := by
      rw [e]
      unfold timesOk at ht ⊢
      rw [get_idToken (by decide) (by decide) (by decide),
        get_idToken (by decide) (by decide) (by decide)]
      exact ht
    unfold validateIDToken validate
    rw [if_pos (by simp [issued, htimes])]
    dsimp only
    rw [e]
    unfold issOk
    rw [get_idToken (by decide) (by decide) (by decide),
      get_idToken (by decide) (by decide) (by decide),
      get_idToken (by decide) (by decide) (by decide), hiss]
    have haud : audOk (audience host) (idToken w.uni host now auth) = true := by
      unfold audOk idToken
      dsimp only
      rw [get_set, if_pos rfl]
      unfold audienceForToken
      cases w.uni host with
      | none => simp
      | some u =>
        dsimp only
        by_cases hu : u = host
        · rw [if_pos hu]; simp
        · rw [if_neg hu]; simp
    rw [haud]
    simp
  · intro k hk
    rw [e]
    simp only [List.mem_cons, List.not_mem_nil, or_false] at hk
    rcases hk with rfl | rfl | rfl | rfl | rfl | rfl <;>
      exact get_idToken (by decide) (by decide) (by decide)

example : checkCookies Ex.w.uni (issued Ex.w [Ex.aLogin]) Ex.cm true ["h".toList] 200
      ⟨"h".toList, none, some Ex.aTok, none⟩ = .newIDToken (Ex.anID.claims Ex.w) ∧
    checkCookies Ex.w.uni (issued Ex.w Ex.hist) Ex.cm true ["h".toList] 300
      ⟨"h".toList, none, some Ex.aTok, some (Ex.anID.claims Ex.w)⟩ = .claims (some Ex.aTok) := by
  refine ⟨?_, ?_⟩ <;> decide +kernel

/-! ## C43 -/

/-- C43, first half: a URL token presented with the session cookie it was created under gives
back exactly the URL it was created for. -/
theorem url_token_roundtrip (w : World) (h : List Issue) (email : Option Str) (u sid : Str)
    (hm : Issue.url email u sid ∈ h) (fresh : Str) (now : Nat) :
    ∃ c, validateURL (issued w h) (some sid) fresh now (urlToken email u sid) = some (u, c) := by
  refine ⟨urlToken email u sid, ?_⟩
  have ht : timesOk now (urlToken email u sid) = true := by
    unfold timesOk
    rw [url_get _ _ _ _ (by decide) (by decide) (by decide),
      url_get _ _ _ _ (by decide) (by decide) (by decide)]
    rfl
  have hi : urlToken email u sid ∈ issued w h := List.mem_map.2 ⟨_, hm, rfl⟩
  unfold validateURL validate
  rw [if_pos (by simp [hi, ht])]
  dsimp only
  have hs : get (urlToken email u sid) "sid" = some (.str sid) := by
    unfold urlToken; dsimp only; rw [get_set, if_pos rfl]
  have hu : get (urlToken email u sid) "url" = some (.str u) := by
    unfold urlToken
    dsimp only
    rw [get_set_ne _ _ (by decide), get_set, if_pos rfl]
  rw [hs, hu]
  simp [sessionID]

/-- Identity providers return no claim of this name. -/
def NoExtra (k : String) (h : List Issue) : Prop :=
  ∀ cm now user email sid host extra, Issue.login cm now user email sid host extra ∈ h →
    get extra k = none

/-- C43, second half (partial: identity providers return no claim named "url" and rewrite rules
output none, see `url_token_saml_violated`). A token is accepted as URL token only if it was
created as a URL token, under the session of the request's cookie, and the result is the URL it
was created for. In particular it is refused under any other session, and without cookie. -/
theorem url_token_partial (w : World) (h : List Issue) (hv : Valid w h)
    (hr : NoRewrite ["url", "proxyauth"] h) (hx : NoExtra "url" h) (cookie : Option Str)
    (fresh : Str) (now : Nat) (tok : Claims) (u : Str) (c : Claims)
    (ha : validateURL (issued w h) cookie fresh now tok = some (u, c)) :
    ∃ email sid, Issue.url email u sid ∈ h ∧ tok = urlToken email u sid ∧
      (cookie = some sid ∨ (cookie = none ∧ fresh = sid)) := by
  have hr' : NoRewrite ["proxyauth"] h := fun iss rules now q user hm r hrm hx =>
    hr iss rules now q user hm r hrm (by
      simp only [List.mem_cons, List.not_mem_nil, or_false] at hx ⊢; exact Or.inr hx)
  unfold validateURL at ha
  cases hval : validate (issued w h) now tok with
  | none => rw [hval] at ha; simp at ha
  | some c' =>
    rw [hval] at ha
    obtain ⟨rfl, hm, -⟩ := validate_some hval
    dsimp only at ha
    split at ha
    · exact absurd ha (by simp)
    · rename_i h1
      simp only [ne_eq, Decidable.not_not] at h1
      have hurl : get c' "url" = some (.str u) := by
        split at ha
        · rename_i u' hu
          simp only [Option.some.injEq, Prod.mk.injEq] at ha
          rw [hu, ha.1]
        · exact absurd ha (by simp)
      have nologin : ∀ cm t user email sid host extra,
          Issue.login cm t user email sid host extra ∈ h → ∀ auth,
          authToken w.hash cm t user email sid host extra = some auth →
          get auth "url" = none := by
        intro cm t user email sid host extra hl auth hauth
        obtain ⟨-, -, -, -, -, -, -, -, -, -, hother, -⟩ :=
          reserved_claims _ _ _ _ _ _ _ _ _ hauth
        rw [hother "url" (by decide)]
        exact hx _ _ _ _ _ _ _ hl
      obtain ⟨i, hi, rfl⟩ := List.mem_map.1 hm
      cases i with
      | login cm t user email sid host extra =>
        rw [nologin _ _ _ _ _ _ _ hi _ (valid_login hv hi)] at hurl
        simp at hurl
      | id cm' host' t auth =>
        obtain ⟨t0, user, email, sid, host0, extra, hl, hauth, -⟩ := valid_id hv hr' hi
        rw [show (Issue.id cm' host' t auth).claims w = idToken w.uni host' t auth from rfl,
          get_idToken (by decide) (by decide) (by decide),
          nologin _ _ _ _ _ _ _ hl _ hauth] at hurl
        simp at hurl
      | oidc iss rules t q user =>
        have hrr := hr iss rules t q user hi
        rw [show (Issue.oidc iss rules t q user).claims w = oidcToken iss rules t q user from rfl,
          oidc_get_none _ _ _ _ _ _ (fun r hrm e => hrr r hrm (by simp [e])) (by decide)
          (by decide)] at hurl
        simp at hurl
      | url email url sid =>
        have e : (Issue.url email url sid).claims w = urlToken email url sid := rfl
        have hs : get (urlToken email url sid) "sid" = some (.str sid) := by
          unfold urlToken; dsimp only; rw [get_set, if_pos rfl]
        have hu : get (urlToken email url sid) "url" = some (.str url) := by
          unfold urlToken
          dsimp only
          rw [get_set_ne _ _ (by decide), get_set, if_pos rfl]
        rw [e, hu] at hurl
        rw [e, hs] at h1
        simp only [Option.some.injEq, Val.str.injEq] at hurl h1
        subst hurl
        refine ⟨email, sid, hi, rfl, ?_⟩
        unfold sessionID at h1
        cases cookie with
        | none => exact Or.inr ⟨rfl, h1.symm⟩
        | some x => exact Or.inl (by rw [h1]; rfl)

theorem Ex.hist_noExtra : NoExtra "url" Ex.hist := by
  intro cm now user email sid host extra hm
  simp only [Ex.hist, Ex.aUrl, Ex.anOidc, Ex.anID, Ex.aLogin, List.mem_cons, List.not_mem_nil,
    or_false, reduceCtorEq, false_or, Issue.login.injEq] at hm
  obtain ⟨-, -, -, -, -, -, rfl⟩ := hm
  decide

/-- In the example history the URL token works with its session cookie, and neither with another
one nor without one. -/
example : Valid Ex.w Ex.hist ∧ NoRewrite ["url", "proxyauth"] Ex.hist ∧ NoExtra "url" Ex.hist ∧
    (validateURL (issued Ex.w Ex.hist) (some "s9".toList) [] 300 (Ex.aUrl.claims Ex.w)).map (·.1)
      = some "https://h/x".toList ∧
    validateURL (issued Ex.w Ex.hist) (some "s8".toList) [] 300 (Ex.aUrl.claims Ex.w) = none ∧
    validateURL (issued Ex.w Ex.hist) none "f".toList 300 (Ex.aUrl.claims Ex.w) = none :=
  ⟨Ex.hist_valid, Ex.hist_noRewrite _, Ex.hist_noExtra, by decide +kernel, by decide +kernel,
    by decide +kernel⟩

/-- C43, the missing part. `ValidateURLToken` does not check that the token was made as a URL
token. A SAML attribute named "url" becomes a claim of the login token (saml.go:243-255), which
is then accepted as a URL token for that URL. -/
theorem url_token_saml_violated :
    ∃ (h : List Issue) (sid u : Str) (tok c : Claims), Valid Ex.w h ∧
      (∀ email u sid, Issue.url email u sid ∉ h) ∧ NoRewrite ["url", "proxyauth"] h ∧
      validateURL (issued Ex.w h) (some sid) [] 300 tok = some (u, c) := by
  let i : Issue := .login Ex.cm 100 "u".toList "u@x".toList "s1".toList "h".toList
    [("url", .str "https://evil/".toList)]
  refine ⟨[i], "s1".toList, "https://evil/".toList, i.claims Ex.w, i.claims Ex.w,
    .login _ _ _ _ _ _ _ _ (i.claims Ex.w) .nil rfl, ?_, ?_, by decide +kernel⟩
  · intro email u sid hm; simp [i] at hm
  · intro iss rules now q user hm; simp [i] at hm

end Verif.Token
