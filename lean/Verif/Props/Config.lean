import Verif.Lemmas.Config
/-
C04, C05, C76, C77, C78, C82, C83: configuration validation and routing.
-/
namespace Verif.Config

/-! ## Specification -/

/-- Backend number `i` declares server name `n` together with protocol `p`. -/
def Spec.Declares (bs : List Backend) (i : Nat) (n p : String) : Prop :=
  ∃ be, bs[i]? = some be ∧ n ∈ be.serverNames ∧ p ∈ be.alpnProtos.getD []

/-- The backend a connection must go to: the one that declares the name with the client's
most preferred declared protocol, else the first one with the name. -/
def Spec.route (bs : List Backend) (n : String) (offered : List String) : Option Nat :=
  match offered.findSome? fun p =>
      bs.findIdx? fun be => n ∈ be.serverNames ∧ p ∈ be.alpnProtos.getD [] with
  | some i => some i
  | none => bs.findIdx? fun be => n ∈ be.serverNames

/-- A simple environment for examples: plain ASCII, everything parses. -/
def Spec.env : Env where
  idna := id
  toUpper := id
  toLower := id
  urlOK _ := true
  hostOf s := some s
  cidrOK _ := true
  regexOK _ := true
  certsOK _ := true
  openFileLimit := some 1024
  userCacheDir := some "/cache"
  mkdirOK := true
  quicIsEnabled := true

def Spec.isOk {ε α : Type} : Except ε α → Bool
  | .ok _ => true
  | .error _ => false

theorem accepted {env : Env} {raw : Config} (h : checks env raw (normalise env raw) = none) :
    check env raw = .ok (normalise env raw) := by
  unfold check; rw [h]

/-! ## C05 -/

/-- C05 (1). An accepted configuration never has two backends (or one backend twice)
declaring the same server name and protocol. -/
theorem pair_declared_once (env : Env) (raw cfg : Config) (h : check env raw = .ok cfg)
    (i j : Nat) (n p : String)
    (hi : Spec.Declares cfg.backends i n p) (hj : Spec.Declares cfg.backends j n p) : i = j := by
  obtain ⟨a, ha, ha1, ha2⟩ := hi
  obtain ⟨b, hb, hb1, hb2⟩ := hj
  exact pairs_unique cfg.backends (checkNames_none (check_parts h).2.2.2.2.1).1 n p i j a b ha hb
    (by simp [declares, ha1, ha2]) (by simp [declares, hb1, hb2])

/-- C05 (2). A backend that disables ALPN never repeats a server name of an earlier
backend. -/
theorem noALPN_name_fresh (env : Env) (raw cfg : Config) (h : check env raw = .ok cfg)
    (i j : Nat) (a b : Backend) (hij : i < j)
    (ha : cfg.backends[i]? = some a) (hb : cfg.backends[j]? = some b)
    (hno : b.alpnProtos = some []) (n : String) (hn : n ∈ a.serverNames) : n ∉ b.serverNames := by
  intro hn'
  have hc := (checkNames_none (check_parts h).2.2.2.2.1).2.2
  obtain ⟨hjl, rfl⟩ := List.getElem?_eq_some_iff.mp hb
  obtain ⟨ns1, ns2, hns⟩ := List.append_of_mem hn'
  have hsplit : cfg.backends = cfg.backends.take j ++ cfg.backends[j] :: cfg.backends.drop (j + 1) := by
    simp
  have e : namesOf cfg.backends =
      (namesOf (cfg.backends.take j) ++ ns1.map (fun n => (n, []))) ++ (n, []) ::
        (ns2.map (fun n => (n, [])) ++ namesOf (cfg.backends.drop (j + 1))) := by
    conv => lhs; rw [hsplit]
    simp only [namesOf, List.flatMap_append, List.flatMap_cons, hno, hns]
    simp
  have := (hc _ _ _ e).2
  apply this
  simp only [List.map_append, List.mem_append]
  left
  simp only [namesOf, List.map_flatMap, List.mem_flatMap]
  refine ⟨a, ?_, by simp; exact hn⟩
  obtain ⟨hil, rfl⟩ := List.getElem?_eq_some_iff.mp ha
  exact List.mem_take_iff_getElem.mpr ⟨i, by omega, rfl⟩

/-- C05 (3). Reordering the backends of an accepted configuration does not change which
backend serves a declared server name and protocol. -/
theorem order_irrelevant (env : Env) (raw cfg : Config) (h : check env raw = .ok cfg)
    (bs' : List Backend) (hperm : bs'.Perm cfg.backends) (n p : String) (hp : p ≠ "") :
    (tableOf cfg.backends n p).bind (cfg.backends[·]?) = (tableOf bs' n p).bind (bs'[·]?) := by
  have hn := (checkNames_none (check_parts h).2.2.2.2.1).1
  have hn' : (pairsOf (namesOf bs')).Nodup := by
    apply (List.Perm.nodup_iff _).mpr hn
    exact List.Perm.flatMap_right _ (List.Perm.flatMap_right _ hperm)
  have key : ∀ bs : List Backend, (pairsOf (namesOf bs)).Nodup →
      (∀ be ∈ bs, declares n p be = false) ∧ tableOf bs n p = none ∨
      ∃ i be, bs[i]? = some be ∧ declares n p be = true ∧ tableOf bs n p = some i := by
    intro bs hbs
    by_cases hex : ∃ be ∈ bs, declares n p be = true
    · obtain ⟨be, hmem, hd⟩ := hex
      obtain ⟨i, hi⟩ := List.getElem?_of_mem hmem
      right
      refine ⟨i, be, hi, hd, ?_⟩
      have := buildTable_proto_some (fun _ _ => none) 0 bs n p hp i be hi hd
        (fun k b hk hb => pairs_unique bs hbs n p k i b be hk hi hb hd)
      simpa [tableOf] using this
    · left
      have hall : ∀ be ∈ bs, declares n p be = false := by
        intro be hbe
        cases hd : declares n p be with
        | false => rfl
        | true => exact absurd ⟨be, hbe, hd⟩ hex
      exact ⟨hall, buildTable_proto_none _ _ _ _ _ hp hall⟩
  rcases key cfg.backends hn with ⟨h1, h2⟩ | ⟨i, be, h1, h2, h3⟩
  · rcases key bs' hn' with ⟨g1, g2⟩ | ⟨i', be', g1, g2, g3⟩
    · simp [h2, g2]
    · have := h1 be' (hperm.mem_iff.mp (List.mem_of_getElem? g1))
      simp [this] at g2
  · rcases key bs' hn' with ⟨g1, g2⟩ | ⟨i', be', g1, g2, g3⟩
    · have := g1 be (hperm.mem_iff.mpr (List.mem_of_getElem? h1))
      simp [this] at h2
    · -- the same backend
      have hm : be' ∈ cfg.backends := hperm.mem_iff.mp (List.mem_of_getElem? g1)
      obtain ⟨k, hk⟩ := List.getElem?_of_mem hm
      have := pairs_unique cfg.backends hn n p k i be' be hk h1 g2 h2
      subst this
      rw [h1] at hk; cases hk
      simp [h3, g3, h1, g1]

/-- Two backends share a name with different protocols, a third has its own name. -/
def Spec.cfg3 : Config :=
  { backends := [
      { serverNames := ["a.example", "b.example"], alpnProtos := some ["h2"], mode := "TCP",
        addresses := ["x:1"] },
      { serverNames := ["b.example"], alpnProtos := some ["imap"], mode := "TCP",
        addresses := ["x:2"] },
      { serverNames := ["c.example"], alpnProtos := some [], mode := "TLS",
        addresses := ["x:3"] }] }

example : Spec.isOk (check Spec.env Spec.cfg3) = true := by decide

/-! ## C04 -/

theorem lookupProtos_eq (t : Table) (n : String) (ps : List String) :
    lookupProtos t n ps = ps.findSome? fun p => t n p := by
  induction ps with
  | nil => rfl
  | cons p ps ih =>
    simp only [lookupProtos, List.findSome?_cons]
    cases t n p <;> simp [ih]

theorem table_proto (bs : List Backend) (hn : (pairsOf (namesOf bs)).Nodup) (n p : String)
    (hp : p ≠ "") :
    tableOf bs n p = bs.findIdx? fun be => n ∈ be.serverNames ∧ p ∈ be.alpnProtos.getD [] := by
  by_cases hex : ∃ be ∈ bs, declares n p be = true
  · obtain ⟨be, hmem, hd⟩ := hex
    obtain ⟨i, hi⟩ := List.getElem?_of_mem hmem
    have h1 := buildTable_proto_some (fun _ _ => none) 0 bs n p hp i be hi hd
      (fun k b hk hb => pairs_unique bs hn n p k i b be hk hi hb hd)
    have h2 := findIdx?_unique bs (declares n p) i be hi hd
      (fun k b hk hb => pairs_unique bs hn n p k i b be hk hi hb hd)
    simp only [Nat.zero_add] at h1
    unfold tableOf
    rw [h1]
    symm
    exact h2
  · have hall : ∀ be ∈ bs, declares n p be = false := by
      intro be hbe
      cases hd : declares n p be with
      | false => rfl
      | true => exact absurd ⟨be, hbe, hd⟩ hex
    have h1 := buildTable_proto_none (fun _ _ => none) 0 bs n p hp hall
    unfold tableOf
    rw [h1]
    symm
    rw [List.findIdx?_eq_none_iff]
    intro be hbe
    exact hall be hbe

/-- C04 (violated as stated). A client that offers an empty protocol name before a declared
one is sent to the default backend of the name: the table uses the empty protocol for it. -/
theorem routing_violated :
    ¬ ∀ (env : Env) (raw cfg : Config), check env raw = .ok cfg →
      ∀ (down : Nat → Bool) (n : String) (offered : List String),
        Spec.isOk (check env raw) = true →
        route (tableOf cfg.backends) down n offered = match Spec.route cfg.backends n offered with
          | none => .unexpectedSNI
          | some i => if down i then .shutdown else .to i := by
  intro h
  have := h Spec.env Spec.cfg3 (normalise Spec.env Spec.cfg3) (accepted (by decide)) (fun _ => false)
    "b.example" ["", "imap"] (by decide)
  revert this; decide

/-- C04. For every accepted configuration in which no backend lists the empty protocol, and
every server name and non-empty offered protocols: the connection goes to the backend that
declares the name together with the earliest offered protocol anyone declares for it, else
to the first backend with that name; it is refused iff no backend has the name or the chosen
one is shutting down. Missing from the full statement: empty protocol names (see
`routing_violated`). -/
theorem routing_partial (env : Env) (raw cfg : Config) (h : check env raw = .ok cfg)
    (hne : ∀ be ∈ cfg.backends, "" ∉ be.alpnProtos.getD [])
    (down : Nat → Bool) (n : String) (offered : List String) (ho : "" ∉ offered) :
    route (tableOf cfg.backends) down n offered = match Spec.route cfg.backends n offered with
      | none => .unexpectedSNI
      | some i => if down i then .shutdown else .to i := by
  have hn := (checkNames_none (check_parts h).2.2.2.2.1).1
  have h1 : lookupProtos (tableOf cfg.backends) n offered = offered.findSome? fun p =>
      cfg.backends.findIdx? fun be => n ∈ be.serverNames ∧ p ∈ be.alpnProtos.getD [] := by
    rw [lookupProtos_eq]
    induction offered with
    | nil => rfl
    | cons p ps ih =>
      simp only [List.mem_cons, not_or] at ho
      simp only [List.findSome?_cons, ih ho.2]
      rw [table_proto _ hn n p (Ne.symm ho.1)]
  have h2 : tableOf cfg.backends n "" = cfg.backends.findIdx? fun be => n ∈ be.serverNames := by
    have := buildTable_default (fun _ _ => none) 0 cfg.backends n hne
    simpa [tableOf] using this
  unfold route Spec.route
  rw [h1, h2]
  generalize (offered.findSome? fun p => cfg.backends.findIdx? fun be =>
    n ∈ be.serverNames ∧ p ∈ be.alpnProtos.getD []) = a
  generalize (cfg.backends.findIdx? fun be => n ∈ be.serverNames) = b
  cases a <;> cases b <;> rfl

example : route (tableOf (normalise Spec.env Spec.cfg3).backends) (fun _ => false) "b.example"
    ["h3", "imap", "h2"] = .to 1 := by decide
example : route (tableOf (normalise Spec.env Spec.cfg3).backends) (fun _ => false) "b.example"
    ["h3"] = .to 0 := by decide
example : route (tableOf (normalise Spec.env Spec.cfg3).backends) (· == 2) "c.example" [] =
    .shutdown := by decide
example : route (tableOf (normalise Spec.env Spec.cfg3).backends) (fun _ => false) "d.example" [] =
    .unexpectedSNI := by decide

/-- A configuration change cannot route a name nobody declares (consequence used by C06):
refused as unknown exactly when no backend has the name. -/
theorem refused_iff_undeclared (env : Env) (raw cfg : Config) (h : check env raw = .ok cfg)
    (hne : ∀ be ∈ cfg.backends, "" ∉ be.alpnProtos.getD [])
    (down : Nat → Bool) (n : String) (offered : List String) (ho : "" ∉ offered) :
    route (tableOf cfg.backends) down n offered = .unexpectedSNI ↔
      ∀ be ∈ cfg.backends, n ∉ be.serverNames := by
  rw [routing_partial env raw cfg h hne down n offered ho]
  constructor
  · intro hr
    split at hr
    · rename_i hs
      unfold Spec.route at hs
      split at hs
      · cases hs
      · rw [List.findIdx?_eq_none_iff] at hs
        intro be hbe
        simpa using hs be hbe
    · split at hr <;> cases hr
  · intro hall
    have h1 : ∀ p, (cfg.backends.findIdx? fun be =>
        (n ∈ be.serverNames ∧ p ∈ be.alpnProtos.getD [] : Bool)) = none := by
      intro p
      rw [List.findIdx?_eq_none_iff]
      intro be hbe
      simp [hall be hbe]
    have h2 : (cfg.backends.findIdx? fun be => (n ∈ be.serverNames : Bool)) = none := by
      rw [List.findIdx?_eq_none_iff]
      intro be hbe
      simp [hall be hbe]
    have h3 : Spec.route cfg.backends n offered = none := by
      unfold Spec.route
      have : (offered.findSome? fun p => cfg.backends.findIdx? fun be =>
          (n ∈ be.serverNames ∧ p ∈ be.alpnProtos.getD [] : Bool)) = none := by
        rw [List.findSome?_eq_none_iff]; intro p _; exact h1 p
      rw [this]
      exact h2
    rw [h3]

/-! ## C83 -/

/-- C83 (violated). The server name is compared byte by byte: a client writing an upper-case
letter is refused. -/
theorem sni_case_violated :
    ¬ ∀ (env : Env) (raw cfg : Config), check env raw = .ok cfg →
      ∀ (n n' : String), n.toList.map Char.toLower = n'.toList.map Char.toLower →
        ∀ offered, route (tableOf cfg.backends) (fun _ => false) n offered =
          route (tableOf cfg.backends) (fun _ => false) n' offered := by
  intro h
  have := h Spec.env Spec.cfg3 (normalise Spec.env Spec.cfg3) (accepted (by decide)) "a.example" "A.example"
    (by decide) []
  revert this; decide

/-- C83 (partial). When declared names are in lower case (what IDNA conversion yields), a
client that varies the case is either routed as with the lower-case name or refused, never
to a different backend. -/
theorem sni_case_partial (env : Env) (raw cfg : Config) (h : check env raw = .ok cfg)
    (hne : ∀ be ∈ cfg.backends, "" ∉ be.alpnProtos.getD [])
    (hlow : ∀ be ∈ cfg.backends, ∀ n ∈ be.serverNames, n.toList.map Char.toLower = n.toList)
    (down : Nat → Bool) (n n' : String)
    (hl : n.toList.map Char.toLower = n.toList)
    (hv : n'.toList.map Char.toLower = n.toList)
    (offered : List String) (ho : "" ∉ offered) :
    route (tableOf cfg.backends) down n' offered = route (tableOf cfg.backends) down n offered ∨
    route (tableOf cfg.backends) down n' offered = .unexpectedSNI := by
  by_cases hd : ∀ be ∈ cfg.backends, n' ∉ be.serverNames
  · right
    exact (refused_iff_undeclared env raw cfg h hne down n' offered ho).mpr hd
  · left
    have : ∃ be ∈ cfg.backends, n' ∈ be.serverNames := by
      apply Classical.byContradiction
      intro hc
      exact hd (fun be hbe hn => hc ⟨be, hbe, hn⟩)
    obtain ⟨be, hbe, hn⟩ := this
    have e := hlow be hbe n' hn
    rw [hv] at e
    have : n' = n := String.ext_iff.mpr e.symm
    rw [this]

/-! ## C76 -/

/-- C76 (violated). Other versions are accepted: `v0`, `v7`, a sign, negative numbers. -/
theorem proxy_version_violated :
    ¬ ∀ s b, validateProxyProtoVersion s = some b → s = "" ∨ s = "v1" ∨ s = "v2" := by
  intro h
  have := h "v7" 7 (by decide)
  revert this; decide

example : validateProxyProtoVersion "v-1" = some 255 ∧ validateProxyProtoVersion "v0" = some 0 ∧
    validateProxyProtoVersion "v+2" = some 2 ∧ validateProxyProtoVersion "v128" = none ∧
    validateProxyProtoVersion "2" = none ∧ validateProxyProtoVersion "v2x" = none := by decide

/-- The number that decimal digits stand for. -/
def Spec.value : List Char → Nat
  | [] => 0
  | c :: cs => (c.toNat - 48) * 10 ^ cs.length + Spec.value cs

theorem parseDigits_value (ds : List Char) : ∀ m n, parseDigits ds m = some n →
    n = m * 10 ^ ds.length + Spec.value ds := by
  induction ds with
  | nil => intro m n h; cases h; simp [Spec.value]
  | cons c cs ih =>
    intro m n h
    rw [parseDigits] at h
    split at h
    · have := ih _ _ h
      rw [this, Spec.value, List.length_cons, Nat.pow_succ, Nat.add_mul]
      have e : '0'.toNat = 48 := rfl
      rw [e, Nat.mul_assoc, Nat.mul_comm 10]
      omega
    · exact (nomatch h)

/-- C76 (partial). Nothing is accepted but the empty string and `v` followed by an integer
that fits a signed byte, the empty string means disabled, and `v1`, `v2` are accepted with
their meaning. Missing: integers other than 1 and 2 are accepted too. -/
theorem proxy_version_partial :
    validateProxyProtoVersion "" = some 0 ∧
    validateProxyProtoVersion "v1" = some 1 ∧ validateProxyProtoVersion "v2" = some 2 ∧
    ∀ s b, validateProxyProtoVersion s = some b → s ≠ "" →
      ∃ (sign : List Char) (digits : List Char) (n : Nat),
        s.toList = 'v' :: (sign ++ digits) ∧ (sign = [] ∨ sign = ['+'] ∨ sign = ['-']) ∧
        digits ≠ [] ∧ (∀ c ∈ digits, c.isDigit = true) ∧ n = Spec.value digits ∧
        n ≤ 128 ∧ (sign ≠ ['-'] → n ≤ 127 ∧ b = UInt8.ofNat n) := by
  refine ⟨by decide, by decide, by decide, ?_⟩
  intro s b h hs
  have pd : ∀ (ds : List Char) (m n : Nat), parseDigits ds m = some n → ∀ c ∈ ds, c.isDigit = true := by
    intro ds
    induction ds with
    | nil => simp
    | cons c cs ih =>
      intro m n hp
      simp only [parseDigits] at hp
      split at hp
      · rename_i hc
        intro d hd
        simp only [List.mem_cons] at hd
        rcases hd with rfl | hd
        · exact hc
        · exact ih _ _ hp d hd
      · cases hp
  unfold validateProxyProtoVersion at h
  split at h
  · rename_i he
    exact absurd (String.ext_iff.mpr (by simpa using he)) hs
  · cases h
  · rename_i rest _ hl
    simp only [Option.map_eq_some_iff] at h
    obtain ⟨v, hv, rfl⟩ := h
    have core : ∀ (neg : Bool) (ds : List Char),
        (if ds = [] then none
          else match parseDigits ds 0 with
            | none => none
            | some n =>
              if neg = true then (if n > 128 then none else some (-(n : Int)))
              else (if n > 127 then none else some (n : Int))) = some v →
        ∃ n, ds ≠ [] ∧ (∀ c ∈ ds, c.isDigit = true) ∧ n = Spec.value ds ∧ n ≤ 128 ∧
          (neg = false → n ≤ 127 ∧ v = n) := by
      intro neg ds hd
      split at hd
      · cases hd
      · rename_i hne
        split at hd
        · cases hd
        · rename_i n hn
          refine ⟨n, hne, pd ds 0 n hn, by simpa using parseDigits_value ds 0 n hn, ?_, ?_⟩
          · split at hd
            · split at hd
              · cases hd
              · omega
            · split at hd
              · cases hd
              · omega
          · rintro rfl
            simp only [Bool.false_eq_true, if_false] at hd
            split at hd
            · cases hd
            · cases hd; exact ⟨by omega, rfl⟩
    have fin : ∀ n : Nat, n ≤ 127 → v = n → UInt8.ofNat (v % 256).toNat = UInt8.ofNat n := by
      rintro n hn rfl
      congr 1
      omega
    unfold parseInt8 at hv
    match rest with
    | '+' :: t =>
      obtain ⟨n, a1, a2, a3, a4, a5⟩ := core false t hv
      exact ⟨['+'], t, n, hl, by simp, a1, a2, a3, a4,
        fun _ => ⟨(a5 rfl).1, fin n (a5 rfl).1 (a5 rfl).2⟩⟩
    | '-' :: t =>
      obtain ⟨n, a1, a2, a3, a4, a5⟩ := core true t hv
      exact ⟨['-'], t, n, hl, by simp, a1, a2, a3, a4, fun hc => absurd rfl hc⟩
    | t =>
      split at hv
      rename_i neg ds hm
      split at hm
      · cases hm
        obtain ⟨n, a1, a2, a3, a4, a5⟩ := core false _ hv
        exact ⟨['+'], _, n, hl, by simp, a1, a2, a3, a4,
          fun _ => ⟨(a5 rfl).1, fin n (a5 rfl).1 (a5 rfl).2⟩⟩
      · cases hm
        obtain ⟨n, a1, a2, a3, a4, a5⟩ := core true _ hv
        exact ⟨['-'], _, n, hl, by simp, a1, a2, a3, a4, fun hc => absurd rfl hc⟩
      · cases hm
        obtain ⟨n, a1, a2, a3, a4, a5⟩ := core false _ hv
        exact ⟨[], _, n, hl, by simp, a1, a2, a3, a4,
          fun _ => ⟨(a5 rfl).1, fin n (a5 rfl).1 (a5 rfl).2⟩⟩
  · cases h

/-! ## C77 -/

/-- `host` is `domain` or a subdomain of it. -/
def Spec.inDomain (host domain : String) : Prop :=
  host = domain ∨ ∃ pre : List Char, host.toList = pre ++ '.' :: domain.toList

/-- A configuration with one OIDC provider. -/
def Spec.oidcCfg (url domain : String) : Config :=
  { oidc := [{ name := "p", discoveryURL := "d", redirectURL := url, clientID := "i",
               clientSecret := "s", domain := domain }] }

/-- C77 (violated). The test is a plain string suffix: a login host `evilexample.com` is
accepted for the domain `example.com`. -/
theorem provider_domain_violated :
    ¬ ∀ (env : Env) (raw cfg : Config), check env raw = .ok cfg → ∀ p ∈ cfg.oidc, p.domain ≠ "" →
      ∃ host, env.hostOf p.redirectURL = some host ∧ Spec.inDomain host p.domain := by
  intro h
  obtain ⟨host, h1, h2⟩ := h Spec.env (Spec.oidcCfg "evilexample.com" "example.com")
    (normalise Spec.env (Spec.oidcCfg "evilexample.com" "example.com")) (accepted (by decide))
    { name := "p", discoveryURL := "d", redirectURL := "evilexample.com", clientID := "i",
      clientSecret := "s", domain := "example.com" } (by decide) (by decide)
  cases h1
  rcases h2 with h2 | ⟨pre, h2⟩
  · revert h2; decide
  · have h3 := congrArg (fun l => l.reverse[11]?) h2
    simp at h3

/-- C77 (partial). For every provider kind, an accepted domain is always a string suffix of
the login host, hence when the domain starts with a dot or equals the host or the host has a
dot in front of it, it is a domain suffix. Missing: a dot in front is not required. -/
theorem provider_domain_partial (env : Env) (raw cfg : Config) (h : check env raw = .ok cfg) :
    (∀ p ∈ cfg.oidc, p.domain ≠ "" → ∃ host pre, env.hostOf p.redirectURL = some host ∧
      host.toList = pre ++ p.domain.toList ∧
      (pre = [] ∨ pre.getLast? = some '.' → Spec.inDomain host p.domain)) ∧
    (∀ p ∈ cfg.saml, p.domain ≠ "" → ∃ host pre, env.hostOf p.acsURL = some host ∧
      host.toList = pre ++ p.domain.toList ∧
      (pre = [] ∨ pre.getLast? = some '.' → Spec.inDomain host p.domain)) ∧
    (∀ p ∈ cfg.passkeys, p.domain ≠ "" → ∃ host pre, env.hostOf p.endpoint = some host ∧
      host.toList = pre ++ p.domain.toList ∧
      (pre = [] ∨ pre.getLast? = some '.' → Spec.inDomain host p.domain)) := by
  have key : ∀ domain url, checkDomain env domain url = none → domain ≠ "" →
      ∃ host pre, env.hostOf url = some host ∧ host.toList = pre ++ domain.toList ∧
        (pre = [] ∨ pre.getLast? = some '.' → Spec.inDomain host domain) := by
    intro domain url hc hd
    unfold checkDomain at hc
    rw [if_neg hd] at hc
    split at hc
    · cases hc
    · rename_i host hh
      rw [bad_none] at hc
      have hs : hasSuffix host domain = true := by
        cases hx : hasSuffix host domain <;> simp_all
      unfold hasSuffix at hs
      obtain ⟨pre, hpre⟩ := List.isSuffixOf_iff_suffix.mp hs
      refine ⟨host, pre, hh, hpre.symm, ?_⟩
      rintro (rfl | hlast)
      · left; exact String.ext_iff.mpr (by simpa using hpre.symm)
      · right
        obtain ⟨pre', rfl⟩ := List.getLast?_eq_some_iff.mp hlast
        exact ⟨pre', by rw [← hpre]; simp⟩
  obtain ⟨p1, p2, p3, _⟩ := check_parts h
  refine ⟨?_, ?_, ?_⟩
  · intro p hp
    obtain ⟨_, _, _, hf⟩ := loopNames_none_mem p1 p hp
    simp only [checkOIDC, or_none] at hf
    exact key _ _ hf.2.2.2.2.2.2.2.2
  · intro p hp
    obtain ⟨_, _, _, hf⟩ := loopNames_none_mem p2 p hp
    simp only [checkSAML, or_none] at hf
    exact key _ _ hf.2.2.2.2
  · intro p hp
    obtain ⟨_, _, _, hf⟩ := loopNames_none_mem p3 p hp
    simp only [checkPasskey, or_none] at hf
    exact key _ _ hf.2.2.2

example : Spec.isOk (check Spec.env (Spec.oidcCfg "sso.example.com" "example.com")) = true := by decide
example : Spec.isOk (check Spec.env (Spec.oidcCfg "sso.example.com" "example.org")) = false := by decide

/-! ## C78 -/

/-- C78. Everything a running proxy relies on holds in an accepted configuration. -/
structure Spec.Consistent (cfg : Config) : Prop where
  mode_known : ∀ be ∈ cfg.backends, be.mode ∈
    ["TCP", "TLS", "TLSPASSTHROUGH", "QUIC", "HTTP", "HTTPS", "LOCAL", "CONSOLE"]
  named : ∀ be ∈ cfg.backends, be.serverNames ≠ []
  raw_has_address : ∀ be ∈ cfg.backends,
    be.mode ∈ ["TCP", "TLS", "TLSPASSTHROUGH", "QUIC"] → be.addresses ≠ []
  local_has_none : ∀ be ∈ cfg.backends, be.mode ∈ ["LOCAL", "CONSOLE"] → be.addresses = []
  docroot_alone : ∀ be ∈ cfg.backends, be.documentRoot ≠ "" → be.addresses = []
  passthrough_no_auth : ∀ be ∈ cfg.backends, be.mode = "TLSPASSTHROUGH" → be.clientAuth = none
  overrides_http : ∀ be ∈ cfg.backends, be.pathOverrides ≠ [] → be.mode ∈ ["HTTP", "HTTPS"]
  overrides_paths : ∀ be ∈ cfg.backends, ∀ po ∈ be.pathOverrides, po.paths ≠ [] ∧
    po.mode ∈ ["HTTP", "HTTPS"] ∧ ∀ p ∈ po.paths, ∃ mid, p.toList = ['/'] ∨ p.toList = '/' :: mid ++ ['/']
  limit_resolves : ∀ be ∈ cfg.backends, be.bwLimit ≠ "" →
    ∃ l ∈ cfg.bwLimits, l.name = be.bwLimit ∧ ∀ l' ∈ cfg.bwLimits, l'.name = be.bwLimit → l' = l
  provider_resolves : ∀ be ∈ cfg.backends, ∀ s, be.sso = some s →
    ((cfg.oidc.map (·.name) ++ cfg.saml.map (·.name) ++ cfg.passkeys.map (·.name)).count s.provider = 1)
  pki_names : ∀ p ∈ cfg.pki, p.name ≠ "" ∧ (cfg.pki.map (·.name)).count p.name = 1
  ssh_names : ∀ p ∈ cfg.ssh, p.name ≠ "" ∧ (cfg.ssh.map (·.name)).count p.name = 1

theorem unique_of_nodup_map {α : Type} (f : α → String) (l : List α) (h : (l.map f).Nodup)
    (a b : α) (ha : a ∈ l) (hb : b ∈ l) (hab : f a = f b) : a = b := by
  induction l with
  | nil => simp at ha
  | cons x t ih =>
    simp only [List.map_cons, List.nodup_cons, List.mem_map, not_exists, not_and] at h
    simp only [List.mem_cons] at ha hb
    rcases ha with rfl | ha <;> rcases hb with rfl | hb
    · rfl
    · exact absurd hab.symm (h.1 b hb)
    · exact absurd hab (h.1 a ha)
    · exact ih h.2 ha hb

theorem slash_path (p : String) (h1 : hasPrefix p "/" = true) (h2 : hasSuffix p "/" = true) :
    ∃ mid, p.toList = ['/'] ∨ p.toList = '/' :: mid ++ ['/'] := by
  unfold hasPrefix at h1
  unfold hasSuffix at h2
  obtain ⟨t, ht⟩ := List.isPrefixOf_iff_prefix.mp h1
  obtain ⟨s, hs⟩ := List.isSuffixOf_iff_suffix.mp h2
  have e : "/".toList = ['/'] := by decide
  rw [e] at ht hs
  rw [← hs] at ht
  cases s with
  | nil => exact ⟨[], Or.inl (by rw [← hs]; rfl)⟩
  | cons c s =>
    simp at ht
    refine ⟨s, Or.inr ?_⟩
    rw [← hs, ← ht.1]

theorem accepted_consistent (env : Env) (raw cfg : Config) (h : check env raw = .ok cfg) :
    Spec.Consistent cfg := by
  obtain ⟨p1, p2, p3, p4, p5, p6, p7, p8, p9⟩ := check_parts h
  have hb : ∀ be ∈ cfg.backends, _ := fun be hbe => p9 be hbe
  simp only [checkBackend, or_none, bad_none, findSome_none] at hb
  have hmode : ∀ be ∈ cfg.backends, _ := fun be hbe => p4 be hbe
  simp only [checkMode, or_none, bad_none] at hmode
  have hprov : (cfg.oidc.map (·.name) ++ cfg.saml.map (·.name) ++ cfg.passkeys.map (·.name)).Nodup := by
    have a1 := loopNames_none p1
    have a2 := loopNames_none p2
    have a3 := loopNames_none p3
    rw [List.nodup_append, List.nodup_append]
    refine ⟨⟨a1.2.1, a2.2.1, ?_⟩, a3.2.1, ?_⟩
    · intro x hx y hy hxy
      subst hxy
      obtain ⟨s, hs, rfl⟩ := List.mem_map.mp hy
      exact a2.1 s hs hx
    · intro x hx y hy hxy
      subst hxy
      obtain ⟨s, hs, rfl⟩ := List.mem_map.mp hy
      exact a3.1 s hs hx
  refine ⟨?_, ?_, ?_, ?_, ?_, ?_, ?_, ?_, ?_, ?_, ?_, ?_⟩
  · intro be hbe
    have := (hmode be hbe).1
    exact Decidable.not_not.mp this
  · intro be hbe; exact (hb be hbe).1
  · intro be hbe hm ha
    have := (hb be hbe).2.1
    simp only [List.mem_cons, List.not_mem_nil, or_false] at hm
    rcases hm with hm | hm | hm | hm <;> simp [hm, ha] at this
  · intro be hbe hm
    have := (hb be hbe).2.2.1
    simp only [List.mem_cons, List.not_mem_nil, or_false] at hm
    rcases hm with hm | hm <;> simpa [hm] using this
  · intro be hbe hd
    have := (hb be hbe).2.2.2.1
    simpa [hd] using this
  · intro be hbe hm
    have := (hmode be hbe).2.1
    simpa [hm] using this
  · intro be hbe ho
    have := (hb be hbe).2.2.2.2.2.2.2.2.2.2.2.1
    simp only [ho, ne_eq, not_false_eq_true, true_and, not_and, Decidable.not_not] at this
    by_cases h1 : be.mode = "HTTP"
    · simp [h1]
    · simp [this h1]
  · intro be hbe po hpo
    have := (hb be hbe).2.2.2.2.2.2.2.2.2.2.2.2 po hpo
    simp only [checkOverride, or_none, bad_none, findSome_none] at this
    refine ⟨this.1, ?_, ?_⟩
    · have h3 := this.2.2.1
      by_cases h1 : po.mode = "HTTP"
      · simp [h1]
      · simp [h1] at h3; simp [h3]
    · intro p hp
      have h2 := this.2.1 p hp
      simp only [not_or, Bool.not_eq_false] at h2
      exact slash_path p h2.1 h2.2
  · intro be hbe hl
    have := (hb be hbe).2.2.2.2.1
    simp only [hl, ne_eq, not_false_eq_true, true_and, Decidable.not_not, List.mem_map] at this
    obtain ⟨l, hl1, hl2⟩ := this
    exact ⟨l, hl1, hl2, fun l' h1 h2 =>
      unique_of_nodup_map _ _ (loopNames_none p8).2.1 l' l h1 hl1 (by rw [h2, hl2])⟩
  · intro be hbe s hs
    have := (hb be hbe).2.2.2.2.2.2.1
    rw [hs] at this
    simp only [or_none, bad_none, Decidable.not_not] at this
    have h1 := List.nodup_iff_count.mp hprov s.provider
    have h2 := List.count_pos_iff.mpr this.1
    omega
  · intro p hp
    obtain ⟨_, _, _, hf⟩ := loopNames_none_mem p6 p hp
    simp only [checkPKI, or_none, bad_none] at hf
    refine ⟨hf.1, ?_⟩
    have h1 := List.nodup_iff_count.mp (loopNames_none p6).2.1 p.name
    have h2 := List.count_pos_iff.mpr (List.mem_map.mpr ⟨p, hp, rfl⟩ : p.name ∈ cfg.pki.map PKI.name)
    show (cfg.pki.map PKI.name).count p.name = 1
    omega
  · intro p hp
    obtain ⟨_, _, _, hf⟩ := loopNames_none_mem p7 p hp
    simp only [checkSSH, or_none, bad_none] at hf
    refine ⟨hf.1, ?_⟩
    have h1 := List.nodup_iff_count.mp (loopNames_none p7).2.1 p.name
    have h2 := List.count_pos_iff.mpr (List.mem_map.mpr ⟨p, hp, rfl⟩ : p.name ∈ cfg.ssh.map SSHCA.name)
    show (cfg.ssh.map SSHCA.name).count p.name = 1
    omega

/-- A configuration using limits, SSO, path overrides and a PKI endpoint is accepted. -/
example : Spec.isOk (check Spec.env
    { oidc := [{ name := "idp", discoveryURL := "d", redirectURL := "sso.a", clientID := "i",
                 clientSecret := "s" }],
      bwLimits := [{ name := "slow", ingress := 10, egress := 10 }],
      pki := [{ name := "ca", endpoint := "pki.a" }],
      backends := [
        { serverNames := ["www.a"], mode := "HTTP", addresses := ["x:1"], bwLimit := "slow",
          sso := some { provider := "idp" }, clientAuth := some { rootCAs := ["ca"] },
          pathOverrides := [{ paths := ["/", "/x/"], addresses := ["y:1"] }] },
        { serverNames := ["pki.a"], mode := "CONSOLE" }] }) = true := by decide

/-! ## C82 -/

/-- Following `identityProvider` from the name ends at an OIDC or SAML provider. -/
inductive Spec.EndsAtIdP (cfg : Config) : String → Prop where
  | oidc (p : OIDC) : p ∈ cfg.oidc → EndsAtIdP cfg p.name
  | saml (p : SAML) : p ∈ cfg.saml → EndsAtIdP cfg p.name
  | passkey (p : Passkey) : p ∈ cfg.passkeys → p.identityProvider ≠ p.name →
      EndsAtIdP cfg p.identityProvider → EndsAtIdP cfg p.name

/-- C82 (validation alone, violated): a passkey provider delegating to itself passes. -/
theorem passkey_check_violated :
    ¬ ∀ (env : Env) (raw cfg : Config), check env raw = .ok cfg →
      ∀ p ∈ cfg.passkeys, p.identityProvider ≠ p.name := by
  intro h
  have := h Spec.env
    { passkeys := [{ name := "k", identityProvider := "k", endpoint := "e" }] } _ rfl
    { name := "k", identityProvider := "k", endpoint := "e" } (by decide)
  exact this rfl

/-- C82. If a configuration is accepted and its providers can be instantiated (which a
running configuration requires), then following delegation from any passkey provider ends at
an OIDC or SAML provider, and no passkey provider delegates to itself. -/
theorem passkey_delegation (env : Env) (raw cfg : Config) (h : check env raw = .ok cfg)
    (m : Providers) (hm : buildProviders cfg = some m) :
    ∀ p ∈ cfg.passkeys, p.identityProvider ≠ p.name ∧ Spec.EndsAtIdP cfg p.name := by
  have hk := loopNames_none (check_parts h).2.2.1
  -- invariant: all names in the map end at an IdP
  have key : ∀ (ps pre : List Passkey) (m m' : Providers), cfg.passkeys = pre ++ ps →
      (∀ n pr, (n, pr) ∈ m → Spec.EndsAtIdP cfg n) →
      (∀ n pr, (n, pr) ∈ m → n ∈ cfg.oidc.map (·.name) ++ cfg.saml.map (·.name) ++ pre.map (·.name)) →
      addPasskeys m ps = some m' →
      ∀ p ∈ ps, p.identityProvider ≠ p.name ∧ Spec.EndsAtIdP cfg p.name := by
    intro ps
    induction ps with
    | nil => simp
    | cons q ps ih =>
      intro pre m m' he h1 h2 hadd
      simp only [addPasskeys] at hadd
      split at hadd
      · cases hadd
      · rename_i other hl
        have hmem : ∃ pr, (q.identityProvider, pr) ∈ m := by
          obtain ⟨l1, l2, hl', _⟩ := List.lookup_eq_some_iff.mp hl
          exact ⟨other, by rw [hl']; simp⟩
        obtain ⟨pr, hmem⟩ := hmem
        have hne : q.identityProvider ≠ q.name := by
          intro hc
          have hin := h2 _ _ hmem
          rw [hc] at hin
          have hq : q ∈ cfg.passkeys := by rw [he]; simp
          simp only [List.mem_append] at hin
          rcases hin with hin | hin
          · exact hk.1 q hq (by simpa using hin)
          · -- duplicate passkey name
            have hnd := hk.2.1
            rw [he, List.map_append, List.map_cons, List.nodup_append] at hnd
            exact hnd.2.2 _ hin _ (by simp) rfl
        have hends : Spec.EndsAtIdP cfg q.name :=
          .passkey q (by rw [he]; simp) hne (h1 _ _ hmem)
        intro p hp
        simp only [List.mem_cons] at hp
        rcases hp with rfl | hp
        · exact ⟨hne, hends⟩
        · refine ih (pre ++ [q]) _ m' (by simp [he]) ?_ ?_ hadd p hp
          · intro n pr' hn
            simp only [List.mem_cons, Prod.mk.injEq] at hn
            rcases hn with ⟨rfl, _⟩ | hn
            · exact hends
            · exact h1 n pr' hn
          · intro n pr' hn
            simp only [List.mem_cons, Prod.mk.injEq] at hn
            rcases hn with ⟨rfl, _⟩ | hn
            · simp
            · have := h2 n pr' hn
              simp only [List.map_append, List.mem_append] at this ⊢
              grind
  unfold buildProviders at hm
  refine key cfg.passkeys [] _ m (by simp) ?_ ?_ hm
  · intro n pr hn
    simp only [List.mem_append, List.mem_reverse, List.mem_map, Prod.mk.injEq] at hn
    rcases hn with ⟨p, hp, rfl, _⟩ | ⟨p, hp, rfl, _⟩
    · exact .saml p hp
    · exact .oidc p hp
  · intro n pr hn
    simp only [List.mem_append, List.mem_reverse, List.mem_map, Prod.mk.injEq] at hn
    rcases hn with ⟨p, hp, rfl, _⟩ | ⟨p, hp, rfl, _⟩
    · simp; exact Or.inr ⟨p, hp, rfl⟩
    · simp; exact Or.inl ⟨p, hp, rfl⟩

/-- An accepted chain of two passkey providers in front of an OIDC provider. -/
example : (buildProviders {
      oidc := [{ name := "o" }],
      passkeys := [{ name := "k1", identityProvider := "o" },
        { name := "k2", identityProvider := "k1" }] }) =
    some [("k2", .passkey (.passkey .oidc)), ("k1", .passkey .oidc), ("o", .oidc)] := by decide

end Verif.Config
