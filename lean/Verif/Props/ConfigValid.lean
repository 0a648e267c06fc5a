import Verif.Props.Config
/-
C92, C93: exactly which configurations are accepted, and that validation is idempotent.
-/
namespace Verif.Config

/-! ## Specification -/

/-- A cookie domain is empty or a string suffix of the host of the URL. -/
def Spec.DomainOK (env : Env) (domain url : String) : Prop :=
  domain = "" ∨ ∃ host pre, env.hostOf url = some host ∧ host.toList = pre ++ domain.toList

/-- Certificate authorities are local ones or readable certificates. -/
def Spec.CAsOK (env : Env) (cfg : Config) (cas : List String) : Prop :=
  ∀ n ∈ cas, (∃ p ∈ cfg.pki, p.name = n) ∨ env.certsOK n = true

/-- A proxy protocol version that can be parsed. -/
def Spec.VersionOK (s : String) : Prop := ∃ b, validateProxyProtoVersion s = some b

structure Spec.OIDCOK (env : Env) (p : OIDC) : Prop where
  endpoints : (p.authEndpoint ≠ "" ∧ p.tokenEndpoint ≠ "") ∨ p.discoveryURL ≠ ""
  discovery : p.discoveryURL ≠ "" → env.urlOK p.discoveryURL = true
  auth : p.authEndpoint ≠ "" → env.urlOK p.authEndpoint = true
  token : p.tokenEndpoint ≠ "" → env.urlOK p.tokenEndpoint = true
  redirect : p.redirectURL ≠ "" ∧ env.urlOK p.redirectURL = true
  clientID : p.clientID ≠ ""
  clientSecret : p.clientSecret ≠ ""
  domain : Spec.DomainOK env p.domain p.redirectURL

structure Spec.SAMLOK (env : Env) (p : SAML) : Prop where
  ssoURL : p.ssoURL ≠ ""
  entityID : p.entityID ≠ ""
  certs : p.certs ≠ ""
  acsURL : p.acsURL ≠ ""
  domain : Spec.DomainOK env p.domain p.acsURL

structure Spec.LocalOIDCOK (env : Env) (s : LocalOIDC) : Prop where
  clients : ∀ c ∈ s.clients, c.id ≠ "" ∧ c.secret ≠ "" ∧ c.redirectURI ≠ []
  rules : ∀ r ∈ s.rules, r.inputClaim ≠ "" ∧ r.outputClaim ≠ "" ∧ r.regex ≠ "" ∧
    env.regexOK r.regex = true

structure Spec.OverrideOK (env : Env) (cfg : Config) (po : PathOverride) : Prop where
  nonempty : po.paths ≠ []
  /-- paths start and end with a slash -/
  paths : ∀ p ∈ po.paths, p.toList.head? = some '/' ∧ p.toList.getLast? = some '/'
  mode : po.mode = "HTTP" ∨ po.mode = "HTTPS"
  forwardRootCAs : Spec.CAsOK env cfg po.forwardRootCAs
  version : Spec.VersionOK po.proxyProtocolVersion

structure Spec.BackendOK (env : Env) (cfg : Config) (be : Backend) : Prop where
  mode : be.mode ∈ ["TCP", "TLS", "TLSPASSTHROUGH", "QUIC", "HTTP", "HTTPS", "LOCAL", "CONSOLE"]
  passthrough : be.mode = "TLSPASSTHROUGH" → be.clientAuth = none
  proto : be.backendProto ≠ none → be.mode = "HTTP" ∨ be.mode = "HTTPS"
  serverNames : be.serverNames ≠ []
  /-- raw backends have addresses, local ones do not -/
  addresses : be.mode ∈ ["TCP", "TLS", "TLSPASSTHROUGH", "QUIC"] → be.addresses ≠ []
  noAddresses : be.mode = "CONSOLE" ∨ be.mode = "LOCAL" → be.addresses = []
  documentRoot : be.documentRoot = "" ∨ be.addresses = []
  bwLimit : be.bwLimit = "" ∨ ∃ l ∈ cfg.bwLimits, l.name = be.bwLimit
  clientAuth : ∀ ca, be.clientAuth = some ca → Spec.CAsOK env cfg ca.rootCAs ∧
    ∀ f ∈ ca.addClientCertHeader, env.toLower f ∈ ["cert", "chain", "hash", "subject", "uri", "dns"]
  sso : ∀ s, be.sso = some s →
    ((∃ p ∈ cfg.oidc, p.name = s.provider) ∨ (∃ p ∈ cfg.saml, p.name = s.provider) ∨
      ∃ p ∈ cfg.passkeys, p.name = s.provider) ∧
    ∀ l, s.localOIDC = some l → Spec.LocalOIDCOK env l
  forwardRootCAs : Spec.CAsOK env cfg be.forwardRootCAs
  allowIPs : ∀ l, be.allowIPs = some l → ∀ c ∈ l, env.cidrOK c = true
  denyIPs : ∀ l, be.denyIPs = some l → ∀ c ∈ l, env.cidrOK c = true
  version : Spec.VersionOK be.proxyProtocolVersion
  overridesMode : be.pathOverrides ≠ [] → be.mode = "HTTP" ∨ be.mode = "HTTPS"
  overrides : ∀ po ∈ be.pathOverrides, Spec.OverrideOK env cfg po

/-- The first backend with a server name. -/
def Spec.First (bs : List Backend) (host : String) (be : Backend) : Prop :=
  ∃ pre post, bs = pre ++ be :: post ∧ host ∈ be.serverNames ∧ ∀ b ∈ pre, host ∉ b.serverNames

/-- All declared pairs of server name and protocol, with repetitions. -/
def Spec.pairs (bs : List Backend) : List (String × String) :=
  bs.flatMap fun be => be.serverNames.flatMap fun n => (be.alpnProtos.getD []).map fun p => (n, p)

/-- All server names in order, with the protocols declared next to them. -/
def Spec.named (bs : List Backend) : List (String × List String) :=
  bs.flatMap fun be => be.serverNames.map fun n => (n, be.alpnProtos.getD [])

/-- What a configuration must satisfy. `raw` is the configuration as read, `cfg` the same with
defaults filled in and names normalised. -/
structure Spec.Valid (env : Env) (raw cfg : Config) : Prop where
  cacheDir : raw.cacheDir ≠ "" ∨ env.userCacheDir ≠ none
  maxOpen : raw.maxOpen ≠ 0 ∨ env.openFileLimit ≠ none
  quic : cfg.enableQUIC.getD env.quicIsEnabled = true → env.quicIsEnabled = true
  acceptFrom : ∀ c ∈ cfg.acceptProxyHeaderFrom, env.cidrOK c = true
  /-- provider names are unique across all three kinds -/
  providers : (cfg.oidc.map (·.name) ++ cfg.saml.map (·.name) ++ cfg.passkeys.map (·.name)).Nodup
  oidc : ∀ p ∈ cfg.oidc, Spec.OIDCOK env p
  saml : ∀ p ∈ cfg.saml, Spec.SAMLOK env p
  /-- a passkey provider names a provider declared before it, or itself -/
  passkeys : ∀ pre p post, cfg.passkeys = pre ++ p :: post → p.endpoint ≠ "" ∧
    p.identityProvider ≠ "" ∧
    ((∃ q ∈ cfg.oidc, q.name = p.identityProvider) ∨ (∃ q ∈ cfg.saml, q.name = p.identityProvider) ∨
      (∃ q ∈ pre, q.name = p.identityProvider) ∨ p.name = p.identityProvider) ∧
    Spec.DomainOK env p.domain p.endpoint
  pairs : (Spec.pairs cfg.backends).Nodup
  noALPN : ∀ pre n post, Spec.named cfg.backends = pre ++ (n, []) :: post → ∀ e ∈ pre, e.1 ≠ n
  pkiNames : (cfg.pki.map (·.name)).Nodup
  pki : ∀ p ∈ cfg.pki, p.name ≠ "" ∧ (p.endpoint ≠ "" → ∃ host be, env.hostOf p.endpoint = some host ∧
    Spec.First cfg.backends host be ∧ (be.mode = "LOCAL" ∨ be.mode = "CONSOLE"))
  sshNames : (cfg.ssh.map (·.name)).Nodup
  ssh : ∀ p ∈ cfg.ssh, p.name ≠ "" ∧ (p.certificateEndpoint ≠ "" → ∃ host,
    env.hostOf p.certificateEndpoint = some host ∧ ∃ be ∈ cfg.backends, host ∈ be.serverNames)
  bwLimits : (cfg.bwLimits.map (·.name)).Nodup
  backends : ∀ be ∈ cfg.backends, Spec.BackendOK env cfg be
  mkdir : env.mkdirOK = true

/-! ## Each check against its specification -/

theorem loopNames_iff {α : Type} (name : α → String) (f : List String → α → Option String)
    (l : List α) (seen : List String) :
    loopNames name f seen l = none ↔
      (∀ a ∈ l, name a ∉ seen) ∧ (l.map name).Nodup ∧
      ∀ pre a post, l = pre ++ a :: post → f (seen ++ pre.map name ++ [name a]) a = none := by
  constructor
  · exact loopNames_none
  · induction l generalizing seen with
    | nil => simp [loopNames]
    | cons a t ih =>
      rintro ⟨h1, h2, h3⟩
      simp only [List.map_cons, List.nodup_cons] at h2
      simp only [loopNames, or_none, bad_none]
      refine ⟨h1 a (by simp), by simpa using h3 [] a t rfl, ih _ ⟨?_, h2.2, ?_⟩⟩
      · intro b hb
        simp only [List.mem_append, List.mem_singleton, not_or]
        refine ⟨h1 b (by simp [hb]), ?_⟩
        intro e
        exact h2.1 (by rw [← e]; exact List.mem_map_of_mem hb)
      · intro pre b post he
        have := h3 (a :: pre) b post (by rw [he]; rfl)
        simpa using this

theorem checkProtos_iff (n : String) (ps : List String) (seen seen' : List (String × String)) :
    checkProtos n seen ps = some seen' ↔
      seen' = seen ++ ps.map (fun p => (n, p)) ∧ (∀ p ∈ ps, (n, p) ∉ seen) ∧ ps.Nodup := by
  constructor
  · exact checkProtos_some
  · induction ps generalizing seen with
    | nil => rintro ⟨h, -, -⟩; simp [checkProtos, h]
    | cons p t ih =>
      rintro ⟨h1, h2, h3⟩
      simp only [List.nodup_cons] at h3
      simp only [checkProtos]
      rw [if_neg (h2 p (by simp))]
      refine ih _ ⟨by rw [h1]; simp, ?_, h3.2⟩
      intro q hq
      simp only [List.mem_append, List.mem_singleton, Prod.mk.injEq, true_and, not_or]
      refine ⟨h2 q (by simp [hq]), ?_⟩
      rintro rfl; exact h3.1 hq

theorem checkNames_iff (l : List (String × List String)) (names : List String)
    (keys : List (String × String)) :
    checkNames names keys l = none ↔
      (pairsOf l).Nodup ∧ (∀ k ∈ pairsOf l, k ∉ keys) ∧
      (∀ pre n post, l = pre ++ (n, []) :: post → n ∉ names ∧ n ∉ pre.map (·.1)) := by
  constructor
  · exact checkNames_none
  · induction l generalizing names keys with
    | nil => simp [checkNames]
    | cons e t ih =>
      obtain ⟨n, ps⟩ := e
      rintro ⟨h1, h2, h3⟩
      have e : pairsOf ((n, ps) :: t) = ps.map (fun p => (n, p)) ++ pairsOf t := by simp [pairsOf]
      rw [e] at h1 h2
      rw [List.nodup_append] at h1
      obtain ⟨g1, g2, g3⟩ := h1
      have hps : ps.Nodup := by
        rw [List.Nodup, List.pairwise_map] at g1
        exact g1.imp (by simp)
      have hc := (checkProtos_iff n ps keys _).mpr ⟨rfl, fun p hp => h2 (n, p) (by simp [hp]), hps⟩
      simp only [checkNames, or_none, bad_none, hc]
      refine ⟨?_, ih _ _ ⟨g2, ?_, ?_⟩⟩
      · rintro ⟨hn, hl⟩
        have := h3 [] n t (by rw [List.eq_nil_of_length_eq_zero hl]; rfl)
        exact this.1 hn
      · intro k hk hk'
        rcases List.mem_append.mp hk' with hk' | hk'
        · exact h2 k (by simp [hk]) hk'
        · exact g3 k hk' k hk rfl
      · intro pre m post he
        have := h3 ((n, ps) :: pre) m post (by rw [he]; rfl)
        simp only [List.map_cons, List.mem_cons, not_or] at this
        simp only [List.mem_append, List.mem_singleton, not_or]
        exact ⟨⟨this.1, this.2.1⟩, this.2.2⟩

theorem checkDomain_iff (env : Env) (domain url : String) :
    checkDomain env domain url = none ↔ Spec.DomainOK env domain url := by
  unfold checkDomain Spec.DomainOK
  split
  · rename_i h; simp [h]
  · rename_i h
    simp only [h, false_or]
    cases hh : env.hostOf url with
    | none => simp
    | some host =>
      refine bad_none.trans ?_
      rw [Bool.not_eq_false]
      unfold hasSuffix
      rw [List.isSuffixOf_iff_suffix]
      constructor
      · rintro ⟨t, ht⟩; exact ⟨host, t, rfl, ht.symm⟩
      · rintro ⟨_, t, e, ht⟩; cases e; exact ⟨t, ht.symm⟩

theorem checkOIDC_iff (env : Env) (seen : List String) (p : OIDC) :
    checkOIDC env seen p = none ↔ Spec.OIDCOK env p := by
  simp only [checkOIDC, or_none, bad_none, checkDomain_iff]
  constructor
  · rintro ⟨h1, h2, h3, h4, h5, h6, h7, h8, h9⟩
    refine ⟨?_, ?_, ?_, ?_, ⟨h5, ?_⟩, h7, h8, h9⟩ <;> grind
  · rintro ⟨h1, h2, h3, h4, ⟨h5, h6⟩, h7, h8, h9⟩
    refine ⟨?_, ?_, ?_, ?_, h5, ?_, h7, h8, h9⟩ <;> grind

theorem checkSAML_iff (env : Env) (seen : List String) (p : SAML) :
    checkSAML env seen p = none ↔ Spec.SAMLOK env p := by
  simp only [checkSAML, or_none, bad_none, checkDomain_iff]
  constructor
  · rintro ⟨h1, h2, h3, h4, h5⟩; exact ⟨h1, h2, h3, h4, h5⟩
  · rintro ⟨h1, h2, h3, h4, h5⟩; exact ⟨h1, h2, h3, h4, h5⟩

theorem checkRootCAs_iff (env : Env) (cfg : Config) (cas : List String) :
    checkRootCAs env (cfg.pki.map (·.name)) cas = none ↔ Spec.CAsOK env cfg cas := by
  simp only [checkRootCAs, findSome_none, bad_none, Spec.CAsOK, List.mem_map]
  constructor
  · intro h n hn; have := h n hn; grind
  · intro h n hn; have := h n hn; grind

theorem checkLocalOIDC_iff (env : Env) (s : LocalOIDC) :
    checkLocalOIDC env s = none ↔ Spec.LocalOIDCOK env s := by
  simp only [checkLocalOIDC, or_none, findSome_none, bad_none]
  constructor
  · rintro ⟨h1, h2⟩
    refine ⟨fun c hc => h1 c hc, fun r hr => ?_⟩
    obtain ⟨a, b, c, d⟩ := h2 r hr
    exact ⟨a, b, c, by simpa using d⟩
  · rintro ⟨h1, h2⟩
    refine ⟨fun c hc => h1 c hc, fun r hr => ?_⟩
    obtain ⟨a, b, c, d⟩ := h2 r hr
    exact ⟨a, b, c, by simp [d]⟩

theorem slash_prefix (p : String) : hasPrefix p "/" = true ↔ p.toList.head? = some '/' := by
  unfold hasPrefix
  rw [show "/".toList = ['/'] by decide, List.isPrefixOf_iff_prefix]
  cases p.toList with
  | nil => simp
  | cons c t => simp [List.cons_prefix_cons]; exact eq_comm

theorem slash_suffix (p : String) : hasSuffix p "/" = true ↔ p.toList.getLast? = some '/' := by
  unfold hasSuffix
  rw [show "/".toList = ['/'] by decide, List.isSuffixOf_iff_suffix]
  constructor
  · rintro ⟨t, ht⟩; rw [← ht]; simp
  · intro h
    obtain ⟨ys, hy⟩ := List.getLast?_eq_some_iff.mp h
    exact ⟨ys, hy.symm⟩

theorem version_iff (s : String) : ¬ validateProxyProtoVersion s = none ↔ Spec.VersionOK s := by
  unfold Spec.VersionOK
  cases validateProxyProtoVersion s <;> simp

theorem checkOverride_iff (env : Env) (cfg : Config) (po : PathOverride) :
    checkOverride env (cfg.pki.map (·.name)) po = none ↔ Spec.OverrideOK env cfg po := by
  simp only [checkOverride, or_none, findSome_none, bad_none, checkRootCAs_iff, version_iff]
  constructor
  · rintro ⟨h1, h2, h3, h4, h5⟩
    refine ⟨h1, fun p hp => ?_, by grind, h4, h5⟩
    have := h2 p hp
    rw [← slash_prefix, ← slash_suffix]; grind
  · rintro ⟨h1, h2, h3, h4, h5⟩
    refine ⟨h1, fun p hp => ?_, by grind, h4, h5⟩
    have := h2 p hp
    rw [← slash_prefix, ← slash_suffix] at this; grind

theorem checkBackend_iff (env : Env) (cfg : Config) (be : Backend) :
    (checkMode be = none ∧ checkBackend env
      (cfg.oidc.map (·.name) ++ cfg.saml.map (·.name) ++ cfg.passkeys.map (·.name))
      (cfg.pki.map (·.name)) (cfg.bwLimits.map (·.name)) be = none) ↔ Spec.BackendOK env cfg be := by
  have hprov : ∀ n : String, n ∈ (cfg.oidc.map (·.name) ++ cfg.saml.map (·.name) ++ cfg.passkeys.map (·.name)) ↔
      ((∃ p ∈ cfg.oidc, p.name = n) ∨ (∃ p ∈ cfg.saml, p.name = n) ∨
      ∃ p ∈ cfg.passkeys, p.name = n) := by
    intro n; simp only [List.mem_append, List.mem_map, or_assoc]
  have hca : (match be.clientAuth with
    | none => none
    | some ca => (checkRootCAs env (cfg.pki.map (·.name)) ca.rootCAs).or <|
        ca.addClientCertHeader.findSome? fun f =>
          bad (env.toLower f ∉ validXFCCFields) "AddClientCertHeader") = none ↔
      ∀ ca, be.clientAuth = some ca → Spec.CAsOK env cfg ca.rootCAs ∧
        ∀ f ∈ ca.addClientCertHeader, env.toLower f ∈ ["cert", "chain", "hash", "subject", "uri", "dns"] := by
    cases be.clientAuth with
    | none => simp
    | some ca =>
      simp only [or_none, findSome_none, bad_none, checkRootCAs_iff, Option.some.injEq, forall_eq',
        Decidable.not_not]
      exact Iff.rfl
  have hsso : (match be.sso with
    | none => none
    | some s => (bad (s.provider ∉ (cfg.oidc.map (·.name) ++ cfg.saml.map (·.name) ++ cfg.passkeys.map (·.name))) "unknown provider").or <|
        match s.localOIDC with
        | none => none
        | some l => checkLocalOIDC env l) = none ↔
      ∀ s, be.sso = some s →
        ((∃ p ∈ cfg.oidc, p.name = s.provider) ∨ (∃ p ∈ cfg.saml, p.name = s.provider) ∨
          ∃ p ∈ cfg.passkeys, p.name = s.provider) ∧
        ∀ l, s.localOIDC = some l → Spec.LocalOIDCOK env l := by
    cases be.sso with
    | none => simp
    | some s =>
      simp only [or_none, bad_none, Option.some.injEq, forall_eq', Decidable.not_not, hprov]
      cases s.localOIDC with
      | none => simp
      | some l => simp [checkLocalOIDC_iff]
  have hips : ∀ (o : Option (List String)) (e : String),
      (∀ c ∈ o.getD [], ¬ env.cidrOK c = false) ↔ ∀ l, o = some l → ∀ c ∈ l, env.cidrOK c = true := by
    intro o e
    cases o <;> simp
  simp only [checkBackend, checkMode]
  simp only [or_none, findSome_none, bad_none, checkRootCAs_iff, version_iff, checkOverride_iff, hips _ ""]
  constructor
  · rintro ⟨⟨m1, m2, m3⟩, h1, h2, h3, h4, h5, h6, h7, h8, h9, h10, h11, h12, h13⟩
    refine ⟨Decidable.not_not.mp m1, ?_, ?_, h1, ?_, ?_, ?_, ?_, hca.mp h6, hsso.mp h7, h8, h9, h10, h11, ?_, h13⟩
    · intro hm; cases hc : be.clientAuth with
      | none => rfl
      | some ca => exact absurd ⟨hm, by simp [hc]⟩ m2
    · intro hp
      have : be.backendProto.isSome = true := by
        cases hc : be.backendProto with
        | none => exact absurd hc hp
        | some _ => rfl
      grind
    · intro hm ha
      simp only [List.mem_cons, List.not_mem_nil, or_false] at hm
      apply h2
      refine ⟨ha, ?_⟩
      rcases hm with hm | hm | hm | hm <;> rw [hm] <;> decide
    · intro hm; grind
    · grind
    · simp only [List.mem_map] at h5; grind
    · intro hp; grind
  · rintro ⟨m1, m2, m3, h1, h2, h3, h4, h5, h6, h7, h8, h9, h10, h11, h12, h13⟩
    refine ⟨⟨Decidable.not_not.mpr m1, ?_, ?_⟩, h1, ?_, ?_, ?_, ?_, hca.mpr h6, hsso.mpr h7, h8, h9, h10, h11, ?_, h13⟩
    · rintro ⟨hm, hc⟩; rw [m2 hm] at hc; cases hc
    · rintro ⟨hp, ha, hb⟩
      have : be.backendProto ≠ none := by intro e; rw [e] at hp; cases hp
      rcases m3 this with h | h
      · exact ha h
      · exact hb h
    · rintro ⟨ha, a1, a2, a3, a4⟩
      simp only [List.mem_cons, List.not_mem_nil, or_false] at m1 h2
      apply h2 _ ha
      grind
    · rintro ⟨ha, hm⟩; exact ha (h3 hm)
    · rintro ⟨hd, ha⟩; grind
    · rintro ⟨hb, hl⟩
      rcases h5 with h5 | ⟨l, hl1, hl2⟩
      · exact hb h5
      · exact hl (List.mem_map.mpr ⟨l, hl1, hl2⟩)
    · rintro ⟨hp, a, b⟩
      rcases h12 hp with h | h
      · exact a h
      · exact b h

theorem firstWithName_iff (bs : List Backend) (host : String) (be : Backend) :
    firstWithName bs host = some be ↔ Spec.First bs host be := by
  unfold firstWithName Spec.First
  rw [List.find?_eq_some_iff_append]
  constructor
  · rintro ⟨h1, pre, post, h2, h3⟩
    exact ⟨pre, post, h2, by simpa using h1, fun b hb => by simpa using h3 b hb⟩
  · rintro ⟨pre, post, h2, h1, h3⟩
    exact ⟨by simpa using h1, pre, post, h2, fun b hb => by simpa using h3 b hb⟩

theorem checkPKI_iff (env : Env) (bs : List Backend) (seen : List String) (p : PKI) :
    checkPKI env bs seen p = none ↔ p.name ≠ "" ∧ (p.endpoint ≠ "" → ∃ host be,
      env.hostOf p.endpoint = some host ∧ Spec.First bs host be ∧
        (be.mode = "LOCAL" ∨ be.mode = "CONSOLE")) := by
  simp only [checkPKI, or_none, bad_none]
  refine and_congr Iff.rfl ?_
  split
  · rename_i h; simp [h]
  · rename_i h
    simp only [ne_eq, h, not_false_eq_true, forall_const]
    cases hh : env.hostOf p.endpoint with
    | none => simp
    | some host =>
      simp only [Option.some.injEq, exists_and_left, exists_eq_left']
      cases hf : firstWithName bs host with
      | none =>
        simp only [reduceCtorEq, false_iff, not_exists]
        rintro be ⟨h1, _⟩
        rw [← firstWithName_iff, hf] at h1; cases h1
      | some be =>
        simp only [bad_none]
        constructor
        · intro h; exact ⟨be, (firstWithName_iff _ _ _).mp hf, by grind⟩
        · rintro ⟨be', h1, h2⟩
          rw [← firstWithName_iff, hf] at h1
          cases h1; grind

theorem checkSSH_iff (env : Env) (bs : List Backend) (seen : List String) (p : SSHCA) :
    checkSSH env bs seen p = none ↔ p.name ≠ "" ∧ (p.certificateEndpoint ≠ "" → ∃ host,
      env.hostOf p.certificateEndpoint = some host ∧ ∃ be ∈ bs, host ∈ be.serverNames) := by
  simp only [checkSSH, or_none, bad_none]
  refine and_congr Iff.rfl ?_
  split
  · rename_i h; simp [h]
  · rename_i h
    simp only [ne_eq, h, not_false_eq_true, forall_const]
    cases hh : env.hostOf p.certificateEndpoint with
    | none => simp
    | some host =>
      simp only [Option.some.injEq, exists_eq_left']
      cases hf : firstWithName bs host with
      | none =>
        simp only [reduceCtorEq, false_iff]
        rintro ⟨be, h1, h2⟩
        unfold firstWithName at hf
        rw [List.find?_eq_none] at hf
        exact hf be h1 (by simpa using h2)
      | some be =>
        simp only [true_iff]
        unfold firstWithName at hf
        exact ⟨be, List.mem_of_find?_eq_some hf, by simpa using List.find?_some hf⟩

theorem pairs_eq (bs : List Backend) : pairsOf (namesOf bs) = Spec.pairs bs := by
  unfold pairsOf namesOf Spec.pairs
  rw [List.flatMap_assoc]
  congr 1
  funext be
  rw [List.flatMap_map]

theorem disjoint_iff {a b : List String} {l : List String} (h : a.Nodup) :
    (∀ x ∈ l, x ∉ a) ∧ l.Nodup ↔ (a ++ l).Nodup := by
  rw [List.nodup_append]
  constructor
  · rintro ⟨h1, h2⟩
    exact ⟨h, h2, fun x hx y hy e => h1 y hy (e ▸ hx)⟩
  · rintro ⟨_, h2, h3⟩
    exact ⟨fun x hx hx' => h3 x hx' x hx rfl, h2⟩

/-! ## C92 -/

/-- C92. A configuration is accepted if and only if it is valid, and what is then used is its
normal form. -/
theorem check_iff (env : Env) (raw cfg : Config) :
    check env raw = .ok cfg ↔ cfg = normalise env raw ∧ Spec.Valid env raw cfg := by
  have main : ∀ cfg, checks env raw cfg = none ↔ Spec.Valid env raw cfg := by
    intro cfg
    simp only [checks, or_none, findSome_none, bad_none, loopNames_iff, checkNames_iff,
      checkOIDC_iff, checkSAML_iff, checkPKI_iff, checkSSH_iff, pairs_eq]
    have hb := fun be => checkBackend_iff env cfg be
    constructor
    · rintro ⟨h1, h2, h3, h4, ⟨-, o2, o3⟩, ⟨s1, s2, s3⟩, ⟨p1, p2, p3⟩, hm, ⟨n1, -, n3⟩,
        ⟨-, k2, k3⟩, ⟨-, c2, c3⟩, ⟨-, l2, -⟩, hbs, hk⟩
      refine ⟨by grind, by grind, ?_, by simpa using h4, ?_, ?_, ?_, ?_, n1, ?_, k2, ?_, c2, ?_, l2, ?_, by simpa using hk⟩
      · intro h
        have : cfg.quic env = true := h
        cases hq : env.quicIsEnabled with
        | true => rfl
        | false => exact absurd ⟨this, hq⟩ h3
      · have e1 : (cfg.oidc.map (·.name) ++ cfg.saml.map (·.name)).Nodup := by
          rw [List.nodup_append]
          refine ⟨o2, s2, ?_⟩
          intro x hx y hy e
          obtain ⟨q, hq, rfl⟩ := List.mem_map.mp hy
          exact s1 q hq (e ▸ hx)
        rw [List.nodup_append]
        refine ⟨e1, p2, ?_⟩
        intro x hx y hy e
        obtain ⟨q, hq, rfl⟩ := List.mem_map.mp hy
        exact p1 q hq (e ▸ hx)
      · intro p hp
        obtain ⟨pre, post, he⟩ := List.append_of_mem hp
        exact o3 pre p post he
      · intro p hp
        obtain ⟨pre, post, he⟩ := List.append_of_mem hp
        exact s3 pre p post he
      · intro pre p post he
        have := p3 pre p post he
        simp only [checkPasskey, or_none, bad_none, checkDomain_iff] at this
        obtain ⟨a, b, c, d⟩ := this
        refine ⟨a, b, ?_, d⟩
        simp only [List.mem_append, List.mem_map, List.mem_singleton, Decidable.not_not] at c
        rcases c with (((c | c) | c) | c)
        · exact Or.inl c
        · exact Or.inr (Or.inl c)
        · exact Or.inr (Or.inr (Or.inl c))
        · exact Or.inr (Or.inr (Or.inr c.symm))
      · intro pre n post he e hmem hn
        exact (n3 pre n post he).2 (List.mem_map.mpr ⟨e, hmem, hn⟩)
      · intro p hp
        obtain ⟨pre, post, he⟩ := List.append_of_mem hp
        exact k3 pre p post he
      · intro p hp
        obtain ⟨pre, post, he⟩ := List.append_of_mem hp
        exact c3 pre p post he
      · intro be hbe
        exact (hb be).mp ⟨hm be hbe, hbs be hbe⟩
    · rintro ⟨h1, h2, h3, h4, hn, ho, hs, hp, n1, n2, k1, k2, c1, c2, l1, hbs, hk⟩
      rw [List.nodup_append, List.nodup_append] at hn
      obtain ⟨⟨o1, s1, os⟩, p1, osp⟩ := hn
      refine ⟨by grind, by grind, ?_, by simpa using h4, ⟨by simp, o1, ?_⟩, ⟨?_, s1, ?_⟩, ⟨?_, p1, ?_⟩,
        ?_, ⟨n1, by simp, ?_⟩, ⟨by simp, k1, ?_⟩, ⟨by simp, c1, ?_⟩, ⟨by simp, l1, by simp⟩, ?_, by simpa using hk⟩
      · rintro ⟨hq, hq'⟩
        have := h3 hq
        rw [hq'] at this; cases this
      · rintro pre p post he; exact ho p (by rw [he]; simp)
      · intro p hp' hmem; exact os _ hmem _ (List.mem_map_of_mem hp') rfl
      · rintro pre p post he; exact hs p (by rw [he]; simp)
      · intro p hp' hmem; exact osp _ hmem _ (List.mem_map_of_mem hp') rfl
      · intro pre p post he
        obtain ⟨a, b, c, d⟩ := hp pre p post he
        simp only [checkPasskey, or_none, bad_none, checkDomain_iff]
        refine ⟨a, b, ?_, d⟩
        simp only [List.mem_append, List.mem_map, List.mem_singleton, Decidable.not_not]
        rcases c with c | c | c | c
        · exact Or.inl (Or.inl (Or.inl c))
        · exact Or.inl (Or.inl (Or.inr c))
        · exact Or.inl (Or.inr c)
        · exact Or.inr c.symm
      · intro be hbe; exact ((hb be).mpr (hbs be hbe)).1
      · intro pre n post he
        refine ⟨by simp, ?_⟩
        intro hmem
        obtain ⟨e, he1, he2⟩ := List.mem_map.mp hmem
        exact n2 pre n post he e he1 he2
      · rintro pre p post he; exact k2 p (by rw [he]; simp)
      · rintro pre p post he; exact c2 p (by rw [he]; simp)
      · intro be hbe; exact ((hb be).mpr (hbs be hbe)).2
  constructor
  · intro h
    obtain ⟨h1, h2⟩ := check_ok h
    exact ⟨h1, (main cfg).mp h2⟩
  · rintro ⟨rfl, h2⟩
    exact accepted ((main _).mpr h2)

/-- A configuration with one backend of each of two modes, a limit, and client authentication
against a local authority, is valid. -/
def Spec.good : Config where
  cacheDir := "/c"
  maxOpen := 100
  bwLimits := [{ name := "slow", ingress := 1 }]
  pki := [{ name := "ca", endpoint := "local.example" }]
  backends := [{ serverNames := ["a.example"], mode := "HTTP", addresses := ["x"], bwLimit := "slow",
                 clientAuth := some { rootCAs := ["ca"], addClientCertHeader := ["cert"] },
                 pathOverrides := [{ paths := ["/p/"], addresses := ["y"] }] },
               { serverNames := ["local.example"], mode := "LOCAL" }]

example : check Spec.env Spec.good = .ok (normalise Spec.env Spec.good) := accepted (by decide)
example : Spec.Valid Spec.env Spec.good (normalise Spec.env Spec.good) :=
  ((check_iff _ _ _).mp (accepted (by decide))).2
/-- An undeclared bandwidth limit is refused. -/
example : Spec.isOk (check Spec.env { Spec.good with bwLimits := [] }) = false := by decide

/-! ## C93 -/

/-- The normal form of a mode. -/
def Spec.ModeOf (env : Env) (m m' : String) : Prop :=
  (env.toUpper m = "" ∨ env.toUpper m = "PLAINTEXT") ∧ m' = "TCP" ∨
  env.toUpper m ≠ "" ∧ env.toUpper m ≠ "PLAINTEXT" ∧ m' = env.toUpper m

/-- C93 (1). In an accepted configuration every backend is the one written at the same place:
server names in ASCII form, the mode in upper case with TCP as default and PLAINTEXT as alias,
protocols as written or else h2 and http/1.1, preceded by h3 exactly if QUIC is enabled and the
mode can serve it; overrides inherit the mode; nothing else is changed. -/
theorem normal_form (env : Env) (raw cfg : Config) (h : check env raw = .ok cfg) (i : Nat) :
    (raw.backends[i]? = none ↔ cfg.backends[i]? = none) ∧
    ∀ be be', raw.backends[i]? = some be → cfg.backends[i]? = some be' →
      be'.serverNames = be.serverNames.map env.idna ∧ Spec.ModeOf env be.mode be'.mode ∧
      (∀ ps, be.alpnProtos = some ps → be'.alpnProtos = some ps) ∧
      (be.alpnProtos = none → ∃ ps, be'.alpnProtos = some ps ∧ "h2" ∈ ps ∧ "http/1.1" ∈ ps ∧
        ∀ p ∈ ps, p = "h2" ∨ p = "http/1.1" ∨ p = "h3" ∧ raw.enableQUIC.getD env.quicIsEnabled = true ∧
          be'.mode ∈ ["HTTP", "HTTPS", "QUIC", "LOCAL", "CONSOLE"]) ∧
      (be.alpnProtos = none → raw.enableQUIC.getD env.quicIsEnabled = true →
        be'.mode ∈ ["HTTP", "HTTPS", "QUIC", "LOCAL", "CONSOLE"] → "h3" ∈ be'.alpnProtos.getD []) ∧
      be'.pathOverrides = be.pathOverrides.map (fun po =>
        { po with mode := env.toUpper (if po.mode = "" then be'.mode else po.mode) }) ∧
      { be' with serverNames := be.serverNames, mode := be.mode, alpnProtos := be.alpnProtos,
                 pathOverrides := be.pathOverrides } = be := by
  obtain ⟨rfl, -⟩ := check_ok h
  constructor
  · simp [normalise]
  · intro be be' h1 h2
    simp only [normalise, List.getElem?_map, h1, Option.map_some, Option.some.injEq] at h2
    subst h2
    refine ⟨rfl, ?_, ?_, ?_, ?_, rfl, rfl⟩
    · simp only [normBackend, normMode, Spec.ModeOf]
      grind
    · intro ps hp; simp [normBackend, hp]
    · intro hp
      refine ⟨_, rfl, ?_⟩
      rw [hp, Option.getD_none]
      split
      · rename_i hq
        refine ⟨by simp, by simp, ?_⟩
        intro p hm
        simp only [List.mem_cons, List.not_mem_nil, or_false] at hm
        rcases hm with hm | hm | hm
        · exact Or.inr (Or.inr ⟨hm, hq.1, hq.2⟩)
        · exact Or.inl hm
        · exact Or.inr (Or.inl hm)
      · exact ⟨by simp, by simp, by simp⟩
    · intro hp hq hm
      have e : (normBackend env (raw.quic env) be).alpnProtos = some (be.alpnProtos.getD
          (if raw.quic env ∧ (normBackend env (raw.quic env) be).mode ∈
              ["HTTP", "HTTPS", "QUIC", "LOCAL", "CONSOLE"]
           then ["h3", "h2", "http/1.1"] else ["h2", "http/1.1"])) := rfl
      rw [e, hp, Option.getD_none, Option.getD_some, if_pos ⟨hq, hm⟩]; simp

/-- C93 (2). The names compared with host names later are in ASCII form, and everything else at
the top level is kept or defaulted as documented. -/
theorem normal_form_top (env : Env) (raw cfg : Config) (h : check env raw = .ok cfg) :
    cfg.defaultServerName = env.idna raw.defaultServerName ∧
    (raw.maxOpen ≠ 0 → cfg.maxOpen = raw.maxOpen) ∧ (raw.cacheDir ≠ "" → cfg.cacheDir = raw.cacheDir) ∧
    (raw.cacheDir = "" → ∃ d, env.userCacheDir = some d ∧ cfg.cacheDir = d ++ "/tlsproxy/letsencrypt") ∧
    (raw.maxOpen = 0 → ∃ n, env.openFileLimit = some n ∧ cfg.maxOpen = n.tdiv 2 - 100) ∧
    (∀ b, raw.enableQUIC = some b → cfg.enableQUIC = some b) ∧
    (raw.enableQUIC = none → cfg.enableQUIC = some env.quicIsEnabled) ∧
    cfg.pki = raw.pki ∧ cfg.ssh = raw.ssh ∧ cfg.bwLimits = raw.bwLimits ∧
    cfg.oidc.map (fun p => { p with domain := "" }) = raw.oidc.map (fun p => { p with domain := "" }) ∧
    cfg.saml.map (fun p => { p with domain := "" }) = raw.saml.map (fun p => { p with domain := "" }) ∧
    cfg.passkeys.map (fun p => { p with domain := "" }) =
      raw.passkeys.map (fun p => { p with domain := "" }) := by
  obtain ⟨rfl, hv⟩ := (check_iff _ _ _).mp h
  refine ⟨rfl, ?_, ?_, ?_, ?_, ?_, ?_, rfl, rfl, rfl, ?_, ?_, ?_⟩
  · intro h; simp [normalise, h]
  · intro h; simp [normalise, h]
  · intro h
    rcases hv.cacheDir with h1 | h1
    · exact absurd h h1
    · obtain ⟨d, hd⟩ := Option.ne_none_iff_exists'.mp h1
      exact ⟨d, hd, by simp [normalise, h, hd]⟩
  · intro h
    rcases hv.maxOpen with h1 | h1
    · exact absurd h h1
    · obtain ⟨n, hn⟩ := Option.ne_none_iff_exists'.mp h1
      exact ⟨n, hn, by simp [normalise, h, hn]⟩
  · intro b h; simp [normalise, Config.quic, h]
  · intro h; simp [normalise, Config.quic, h]
  all_goals simp [normalise, Function.comp_def]

/-- C93 (3). Validating an accepted configuration again accepts it unchanged, provided the ASCII
conversion and upper-casing are idempotent. -/
theorem check_idempotent (env : Env) (raw cfg : Config) (h : check env raw = .ok cfg)
    (hi : ∀ s, env.idna (env.idna s) = env.idna s) (hu : ∀ s, env.toUpper (env.toUpper s) = env.toUpper s)
    (hT : env.toUpper "TCP" = "TCP") : check env cfg = .ok cfg := by
  obtain ⟨hc, hv⟩ := (check_iff _ _ _).mp h
  have hcd : cfg.cacheDir ≠ "" := by
    subst hc
    simp only [normalise]
    split
    · rename_i h0
      rcases hv.cacheDir with h1 | h1
      · exact absurd h0 h1
      · intro he
        have := congrArg String.toList he
        simp at this
    · assumption
  have hmo : cfg.maxOpen ≠ 0 ∨ env.openFileLimit ≠ none := by
    rcases hv.maxOpen with h1 | h1
    · left; subst hc; simp [normalise, h1]
    · exact Or.inr h1
  have hmode : ∀ m, normMode env (normMode env m) = normMode env m := by
    intro m
    simp only [normMode]
    split
    · rw [hT]; simp
    · rename_i h1; rw [hu, if_neg h1]
  have hmodeU : ∀ m, env.toUpper (normMode env m) = normMode env m := by
    intro m
    simp only [normMode]
    split
    · exact hT
    · exact hu m
  have hdom : ∀ d : String, (if (if d = "" then "" else env.idna d) = "" then "" else
      env.idna (if d = "" then "" else env.idna d)) = (if d = "" then "" else env.idna d) := by
    intro d
    by_cases hd : d = ""
    · simp [hd]
    · simp only [hd, if_false, hi]
      split
      · rename_i e; exact e.symm
      · rfl
  have hnorm : normalise env cfg = cfg := by
    have hb : ∀ be ∈ cfg.backends, normBackend env (cfg.quic env) be = be := by
      intro be hbe
      have hok := hv.backends be hbe
      have hpo := hok.overrides
      subst hc
      simp only [normalise, List.mem_map] at hbe
      obtain ⟨be0, hmem, rfl⟩ := hbe
      have e1 : (normBackend env (raw.quic env) be0).mode = normMode env be0.mode := rfl
      have e2 : (normBackend env (raw.quic env) be0).serverNames = be0.serverNames.map env.idna := rfl
      have e3 : ∃ ps, (normBackend env (raw.quic env) be0).alpnProtos = some ps := ⟨_, rfl⟩
      have e4 : ∀ po ∈ (normBackend env (raw.quic env) be0).pathOverrides,
          env.toUpper po.mode = po.mode ∧ po.mode ≠ "" := by
        intro po hp
        refine ⟨?_, ?_⟩
        · simp only [normBackend, List.mem_map] at hp
          obtain ⟨po0, _, rfl⟩ := hp
          exact hu _
        · rcases (hpo po hp).mode with h | h <;> rw [h] <;> decide
      generalize normBackend env (raw.quic env) be0 = be at e1 e2 e3 e4
      obtain ⟨ps, e3⟩ := e3
      have m1 : normMode env be.mode = be.mode := by rw [e1, hmode]
      have m2 : be.serverNames.map env.idna = be.serverNames := by
        rw [e2, List.map_map]; exact List.map_congr_left fun s _ => hi s
      have m3 : be.pathOverrides.map (fun po =>
          { po with mode := env.toUpper (if po.mode = "" then be.mode else po.mode) }) = be.pathOverrides := by
        conv => rhs; rw [← List.map_id be.pathOverrides]
        apply List.map_congr_left
        intro po hp
        obtain ⟨a, b⟩ := e4 po hp
        rw [if_neg b, a]; rfl
      unfold normBackend
      simp only [m1, m2, m3, e3, Option.getD_some]
      rw [← e3]
    have hq : cfg.enableQUIC = some (cfg.quic env) := by
      subst hc; simp [normalise, Config.quic]
    have ho : cfg.oidc.map (fun p =>
        { p with domain := if p.domain = "" then "" else env.idna p.domain }) = cfg.oidc := by
      subst hc
      simp only [normalise, List.map_map]
      apply List.map_congr_left
      intro p _
      simp only [Function.comp_def, hdom]
    have hs : cfg.saml.map (fun p =>
        { p with domain := if p.domain = "" then "" else env.idna p.domain }) = cfg.saml := by
      subst hc
      simp only [normalise, List.map_map]
      apply List.map_congr_left
      intro p _
      simp only [Function.comp_def, hdom]
    have hp : cfg.passkeys.map (fun p =>
        { p with domain := if p.domain = "" then "" else env.idna p.domain }) = cfg.passkeys := by
      subst hc
      simp only [normalise, List.map_map]
      apply List.map_congr_left
      intro p _
      simp only [Function.comp_def, hdom]
    have hbs : cfg.backends.map (normBackend env (cfg.quic env)) = cfg.backends := by
      conv => rhs; rw [← List.map_id cfg.backends]
      exact List.map_congr_left hb
    have hd : env.idna cfg.defaultServerName = cfg.defaultServerName := by
      subst hc; exact hi _
    have hmx : (if cfg.maxOpen = 0 then (env.openFileLimit.getD 0).tdiv 2 - 100 else cfg.maxOpen) = cfg.maxOpen := by
      split
      · rename_i h0
        subst hc
        simp only [normalise] at h0 ⊢
        by_cases hr : raw.maxOpen = 0
        · rw [if_pos hr]
        · rw [if_neg hr] at h0; exact absurd h0 hr
      · rfl
    unfold normalise
    rw [if_neg hcd, hmx, hd, ho, hs, hp, hbs, ← hq]
  rw [check_iff]
  exact ⟨hnorm.symm, ⟨Or.inl hcd, hmo, hv.quic, hv.acceptFrom, hv.providers, hv.oidc, hv.saml,
    hv.passkeys, hv.pairs, hv.noALPN, hv.pkiNames, hv.pki, hv.sshNames, hv.ssh, hv.bwLimits,
    hv.backends, hv.mkdir⟩⟩

example : check Spec.env (normalise Spec.env Spec.good) = .ok (normalise Spec.env Spec.good) :=
  check_idempotent Spec.env Spec.good _ (accepted (by decide)) (fun _ => rfl) (fun _ => rfl) rfl

end Verif.Config
