import Verif.Model.Discovery
import Verif.Props.Endpoints
/-
C109: the discovery document of the local OpenID Connect server. C110: the Alt-Svc header.
-/
namespace Verif.Discovery

open Verif.Path (Str pathClean)
open Verif.Endpoints (Kind Entry Src HasTable build)

/-! ## Specification -/

/-- Text without colons and brackets: a host name or an IPv4 address. -/
def Spec.Plain (h : Str) : Prop := ':' ∉ h ∧ '[' ∉ h ∧ ']' ∉ h

/-- The host and the port of a Host header (RFC 3986, section 3.2). -/
inductive Spec.Authority : Str → Str → Option Str → Prop
  | name {h} : Spec.Plain h → Spec.Authority h h none
  | namePort {h p} : Spec.Plain h → Spec.Plain p → Spec.Authority (h ++ ':' :: p) h (some p)
  | v6 {h} : '[' ∉ h → ']' ∉ h → Spec.Authority ('[' :: h ++ [']']) ('[' :: h ++ [']']) none
  | v6Port {h p} : '[' ∉ h → ']' ∉ h → Spec.Plain p →
      Spec.Authority ('[' :: h ++ ']' :: ':' :: p) ('[' :: h ++ [']']) (some p)

/-- `u` is the URL of `path` at `authority`. -/
def Spec.Url (u authority path : Str) : Prop := u = "https://".toList ++ authority ++ path

/-- A number in decimal. -/
inductive Spec.Decimal : Str → Nat → Prop
  | one {d} : d < 10 → Spec.Decimal [Nat.digitChar d] d
  | snoc {s n d} : Spec.Decimal s n → d < 10 → Spec.Decimal (s ++ [Nat.digitChar d]) (10 * n + d)

/-- The number of a port. -/
inductive Spec.Port : Option Str → Nat → Prop
  | none : Spec.Port none 443
  | empty : Spec.Port (some []) 443
  | number {p n} : Spec.Decimal p n → Spec.Port (some p) n

/-! ## Splitting -/

theorem cut_none {s : Str} (h : ':' ∉ s) : cutLastColon s = none := if_neg h

theorem cut_some (a : Str) {b : Str} (h : ':' ∉ b) : cutLastColon (a ++ ':' :: b) = some (a, b) := by
  unfold cutLastColon
  rw [if_pos (by simp)]
  have hp : ∀ c ∈ b.reverse, decide (c ≠ ':') = true := by
    intro c hc
    rw [List.mem_reverse] at hc
    simp only [ne_eq, decide_eq_true_eq]
    rintro rfl
    exact h hc
  simp only [List.reverse_append, List.reverse_cons, List.append_assoc]
  rw [List.takeWhile_append_of_pos hp, List.dropWhile_append_of_pos hp]
  simp

theorem takeWhile_close {h : Str} (hc : ']' ∉ h) (t : Str) : (h ++ ']' :: t).takeWhile (· ≠ ']') = h := by
  have hp : ∀ c ∈ h, decide (c ≠ ']') = true := by
    intro c hm
    simp only [ne_eq, decide_eq_true_eq]
    rintro rfl
    exact hc hm
  rw [List.takeWhile_append_of_pos hp]
  simp

theorem split_bracket {rest before port : Str} (h : cutLastColon ('[' :: rest) = some (before, port)) :
    splitHostPort ('[' :: rest) = splitBracket rest before port := by
  unfold splitHostPort
  rw [h]
  rfl

/-- What `SplitHostPort` makes of well-formed Host headers; the brackets of IPv6 addresses are
removed. -/
theorem split_authority {s h : Str} {p : Option Str} (ha : Spec.Authority s h p) :
    splitHostPort s = p.map fun q => (if h.head? = some '[' then h.tail.dropLast else h, q) := by
  cases ha with
  | name hp =>
    unfold splitHostPort
    rw [cut_none hp.1]
    rfl
  | @namePort _ p hh hp =>
    unfold splitHostPort
    rw [cut_some h hp.1]
    have hne : h.head? ≠ some '[' := by
      intro hx
      cases h with
      | nil => cases hx
      | cons a t => simp at hx; subst hx; exact hh.2.1 (by simp)
    dsimp only
    rw [Option.map_some, if_neg hne]
    split
    · rename_i rest heq
      exfalso
      cases h with
      | nil => simp at heq
      | cons a t => simp at heq; exact hne (by simp [heq.1])
    · rw [if_neg hh.1, if_neg]
      rw [List.mem_append, List.mem_append, List.mem_cons, List.mem_cons]
      rintro ((h1 | h1 | h1) | (h1 | h1 | h1))
      · exact hh.2.1 h1
      · cases h1
      · exact hp.2.1 h1
      · exact hh.2.2 h1
      · cases h1
      · exact hp.2.2 h1
  | @v6 h h1 h2 =>
    rw [List.cons_append]
    cases hcut : cutLastColon ('[' :: (h ++ [']'])) with
    | none => unfold splitHostPort; rw [hcut]; rfl
    | some bp =>
      obtain ⟨before, port⟩ := bp
      rw [split_bracket hcut]
      unfold splitBracket
      dsimp only
      rw [takeWhile_close h2 [], if_pos]
      · rfl
      · -- the part before the last colon is shorter
        unfold cutLastColon at hcut
        split at hcut
        · rename_i hm
          simp only [Option.some.injEq, Prod.mk.injEq] at hcut
          obtain ⟨rfl, rfl⟩ := hcut
          intro heq
          have hlen := congrArg List.length heq
          have hle := (List.dropWhile_suffix (l := ('[' :: (h ++ [']'])).reverse) (· ≠ ':')).length_le
          have hne : ('[' :: (h ++ [']'])).reverse.dropWhile (· ≠ ':') ≠ [] := by
            intro hx
            have ha := List.any_dropWhile (l := ('[' :: (h ++ [']'])).reverse) (p := (· ≠ ':'))
            rw [hx, List.any_nil] at ha
            have hall : ('[' :: (h ++ [']'])).reverse.all (fun c => decide (c ≠ ':')) = true := by
              simpa using ha
            have := List.all_eq_true.mp hall ':' (List.mem_reverse.mpr hm)
            simp at this
          have := List.length_pos_iff.mpr hne
          simp only [List.length_reverse, List.length_tail, List.length_cons, List.length_append,
            List.length_nil, List.cons_append] at hlen hle this
          omega
        · cases hcut
  | @v6Port h p h1 h2 hp =>
    have hs : '[' :: h ++ ']' :: ':' :: p = ('[' :: h ++ [']']) ++ ':' :: p := by simp
    have hcut := cut_some ('[' :: h ++ [']']) hp.1
    rw [← hs] at hcut
    rw [List.cons_append] at hcut ⊢
    rw [split_bracket hcut]
    unfold splitBracket
    dsimp only
    rw [takeWhile_close h2, if_neg (by simp), if_neg]
    · simp
    · rw [List.mem_append, List.mem_cons, List.mem_cons]
      rintro ((h3 | h3 | h3 | h3) | h3)
      · exact h1 h3
      · cases h3
      · cases h3
      · exact hp.2.1 h3
      · exact hp.2.2 h3

/-! ## C109 -/

/-- The endpoints of the document. -/
def Spec.endpoints (d : Doc) : List (Kind × Str) :=
  [(.oidcAuthorization, d.authorization), (.oidcToken, d.token), (.oidcUserinfo, d.userinfo), (.oidcJWKS, d.jwks)]

theorem hostPart_name {host : Str} (h : ':' ∉ host) : hostPart host = host := by
  unfold hostPart splitHostPort
  rw [cut_none h]

/-- C109. Every URL of the discovery document names the host that was asked, and a request to it is
answered by the endpoint the document says it is: the token, user information and key endpoints to
anybody, the authorization endpoint to whom the policy admits. Missing: Host headers with a port. -/
theorem discovery_partial (split : String → Option (String × Str)) (s : Src) (code : Kind → Nat) (i : Nat)
    (ebe : Endpoints.Be) (sso : Endpoints.SSO) (pre host : Str) (hbe : s.backends[i]? = some ebe)
    (hsso : ebe.sso = some sso) (hpre : sso.oidcPrefix = some pre) (hsn : ebe.serverNames ≠ [])
    (hhost : ':' ∉ host) (k : Kind) (u : Str)
    (hu : (k, u) ∈ Spec.endpoints (serveConfig (issuer ebe.serverNames pre) pre host)) :
    ∃ path, Spec.Url u host path ∧
      ∀ (c : Http.Ctx) (be : Http.Be) (r : Http.Req) (a : Http.Authed), HasTable split s code i be →
        pathClean path = path → r.path = path →
        -- no endpoint of a URL of the configuration is in the way
        (∀ e ∈ (build split s).table i, e.host ≠ "" →
          ¬ Http.Spec.Covers (e.handler code) (c.hostFromReq r.host) path) →
        (∀ e ∈ (build split s).table i, e.host = "" → e.path = path → e.kind = k) →
        Http.authenticate c be r = .ok a →
        (k ≠ .oidcAuthorization ∨ ∃ ck, Http.enforce c be r a.claims = .ok ck) →
        ∃ h, Http.serve c be r = .endpoint h ∧ h.id = code k := by
  have main : ∀ p : String, (k, p) ∈ [(Kind.oidcConfig, "/.well-known/openid-configuration"),
        (.oidcAuthorization, "/authorization"), (.oidcToken, "/token"),
        (.oidcUserinfo, "/userinfo"), (.oidcJWKS, "/jwks")] →
      u = "https://".toList ++ host ++ pre ++ p.toList → k ≠ .oidcConfig → _ := fun p hp hu hk => (show
      ∃ path, Spec.Url u host path ∧
      ∀ (c : Http.Ctx) (be : Http.Be) (r : Http.Req) (a : Http.Authed), HasTable split s code i be →
        pathClean path = path → r.path = path →
        (∀ e ∈ (build split s).table i, e.host ≠ "" →
          ¬ Http.Spec.Covers (e.handler code) (c.hostFromReq r.host) path) →
        (∀ e ∈ (build split s).table i, e.host = "" → e.path = path → e.kind = k) →
        Http.authenticate c be r = .ok a →
        (k ≠ .oidcAuthorization ∨ ∃ ck, Http.enforce c be r a.claims = .ok ck) →
        ∃ h, Http.serve c be r = .endpoint h ∧ h.id = code k by
    refine ⟨pre ++ p.toList, by rw [hu]; simp [Spec.Url, List.append_assoc], ?_⟩
    intro c be r a ht hclean hpath hway huniq ha hpol
    have he : Endpoints.Spec.entry k "" (pre ++ p.toList) ∈ (build split s).table i :=
      (Endpoints.table_exact split s i _).mpr (.inl ⟨ebe, k, _, hbe, .oidc hsso hpre hsn hp, rfl⟩)
    refine ⟨_, Endpoints.endpoint_answers_partial split s code i c be r _ a ht he hclean hpath
      (.inr ⟨rfl, ?_⟩) ?_ ha ?_, rfl⟩
    · intro e' he' hne
      rw [hpath]
      exact hway e' he' hne
    · intro e' he' h1 h2
      have h3 := huniq e' he' h1 h2
      rw [Endpoints.table_entry he', h3, h1, h2]
      rfl
    · rcases hpol with h | h
      · left
        show Endpoints.Spec.public k = true
        simp only [List.mem_cons, List.not_mem_nil, or_false, Prod.mk.injEq] at hp
        rcases hp with hp | hp | hp | hp | hp <;> rw [hp.1] at h hk ⊢ <;> first | rfl | exact absurd rfl h
      · exact .inr h)
  unfold Spec.endpoints serveConfig at hu
  dsimp only at hu
  rw [hostPart_name hhost] at hu
  simp only [List.mem_cons, List.not_mem_nil, or_false, Prod.mk.injEq] at hu
  rcases hu with ⟨rfl, rfl⟩ | ⟨rfl, rfl⟩ | ⟨rfl, rfl⟩ | ⟨rfl, rfl⟩
  · exact main "/authorization" (by simp) rfl (by simp)
  · exact main "/token" (by simp) rfl (by simp)
  · exact main "/userinfo" (by simp) rfl (by simp)
  · exact main "/jwks" (by simp) rfl (by simp)

/-- C109. The document names its issuer as the discovery standard wants it, so that a client accepts
it, exactly if it was fetched from the first server name of the backend. -/
theorem discovery_issuer_partial (names : List String) (n : String) (pre : Str) (host : String) :
    Spec.Url ((serveConfig (issuer (n :: names) pre) pre host.toList).issuer ++
        "/.well-known/openid-configuration".toList) host.toList (pre ++ "/.well-known/openid-configuration".toList) ↔
      host = n := by
  unfold serveConfig issuer Spec.Url
  dsimp only [List.headD_cons]
  rw [List.append_assoc, List.append_assoc, List.append_assoc, List.append_cancel_left_eq,
    List.append_cancel_right_eq, String.toList_inj]
  exact eq_comm

/-- C109, violated: for a Host header with a port the document names another authority, and for the
second server name of a backend another issuer. -/
theorem discovery_violated :
    (∃ iss pre host, Spec.Authority host "h".toList (some "8443".toList) ∧
      ∀ k u, (k, u) ∈ Spec.endpoints (serveConfig iss pre host) → ∀ path, ¬ Spec.Url u host path) ∧
    (∃ (names : List String) (pre : Str) (host : String), host ∈ names ∧
      ¬ Spec.Url ((serveConfig (issuer names pre) pre host.toList).issuer ++
        "/.well-known/openid-configuration".toList) host.toList
        (pre ++ "/.well-known/openid-configuration".toList)) := by
  constructor
  · refine ⟨[], "/oidc".toList, "h".toList ++ ':' :: "8443".toList, .namePort ?_ ?_, ?_⟩
    · unfold Spec.Plain; decide
    · unfold Spec.Plain; decide
    · intro k u hu path h
      unfold Spec.Url at h
      have : u.take 10 = "https://h/".toList := by
        have hd : ∀ x ∈ Spec.endpoints (serveConfig [] "/oidc".toList ("h".toList ++ ':' :: "8443".toList)),
            x.2.take 10 = "https://h/".toList := by decide +kernel
        exact hd _ hu
      rw [h] at this
      have h2 : ("https://".toList ++ ("h".toList ++ ':' :: "8443".toList) ++ path).take 10 =
          "https://h:".toList := rfl
      rw [h2] at this
      exact absurd this (by decide)
  · refine ⟨["a", "b"], [], "b", by simp, ?_⟩
    intro h
    have := (discovery_issuer_partial ["b"] "a" [] "b").mp h
    exact absurd this (by decide)

/-- A backend with a local OpenID Connect server. -/
example : Spec.endpoints (serveConfig (issuer ["h"] "/oidc".toList) "/oidc".toList "h".toList) =
    [(.oidcAuthorization, "https://h/oidc/authorization".toList), (.oidcToken, "https://h/oidc/token".toList),
     (.oidcUserinfo, "https://h/oidc/userinfo".toList), (.oidcJWKS, "https://h/oidc/jwks".toList)] ∧
    pathClean "/oidc/token".toList = "/oidc/token".toList := by decide +kernel

/-! ## C110 -/

theorem digitChar_fin : ∀ d : Fin 10, (Nat.digitChar d).isDigit = true ∧ (Nat.digitChar d).toNat - 48 = d.1 ∧
    Nat.digitChar d ≠ '+' ∧ Nat.digitChar d ≠ '-' := by decide +kernel

theorem digit_val_fin : ∀ i : Fin 10, Nat.digitChar ((Char.ofNat (48 + i.1)).toNat - 48) = Char.ofNat (48 + i.1) ∧
    (Char.ofNat (48 + i.1)).toNat - 48 < 10 := by decide +kernel

theorem isDigit_char {c : Char} (h : c.isDigit = true) :
    Nat.digitChar (c.toNat - 48) = c ∧ c.toNat - 48 < 10 := by
  have hr : 48 ≤ c.toNat ∧ c.toNat ≤ 57 := by
    unfold Char.isDigit at h
    simp only [Bool.and_eq_true, decide_eq_true_eq] at h
    exact ⟨h.1, h.2⟩
  have := digit_val_fin ⟨c.toNat - 48, by omega⟩
  dsimp only at this
  rwa [show 48 + (c.toNat - 48) = c.toNat by omega, Char.ofNat_toNat] at this

theorem decimal_digits {p : Str} {n : Nat} (h : Spec.Decimal p n) :
    p ≠ [] ∧ p.all Char.isDigit = true ∧ p.foldl (fun n c => 10 * n + (c.toNat - 48)) 0 = n ∧
      p.head? ≠ some '+' ∧ p.head? ≠ some '-' := by
  induction h with
  | @one d hd =>
    have := digitChar_fin ⟨d, hd⟩
    dsimp only at this
    refine ⟨by simp, by simp [this.1], by simp [this.2.1], by simp [this.2.2.1], by simp [this.2.2.2]⟩
  | @snoc s n d _ hd ih =>
    have := digitChar_fin ⟨d, hd⟩
    dsimp only at this
    obtain ⟨h1, h2, h3, h4, h5⟩ := ih
    refine ⟨by simp, ?_, ?_, ?_, ?_⟩
    · rw [List.all_append, h2]; simp [this.1]
    · rw [List.foldl_append, h3, List.foldl_cons, List.foldl_nil, this.2.1]
    · rw [List.head?_append, Option.or_of_isSome (by simpa [List.isSome_head?] using h1)]; exact h4
    · rw [List.head?_append, Option.or_of_isSome (by simpa [List.isSome_head?] using h1)]; exact h5

theorem digits_decimal (p : Str) (hp : p ≠ []) (h : p.all Char.isDigit = true) :
    Spec.Decimal p (p.foldl (fun n c => 10 * n + (c.toNat - 48)) 0) := by
  generalize hl : p.length = l
  induction l generalizing p with
  | zero => exact absurd (List.length_eq_zero_iff.mp hl) hp
  | succ l ih =>
    rcases List.eq_nil_or_concat p with rfl | ⟨q, c, rfl⟩
    · exact absurd rfl hp
    · rw [List.concat_eq_append] at *
      rw [List.all_append, Bool.and_eq_true] at h
      have hc : c.isDigit = true := by simpa using h.2
      obtain ⟨h1, h2⟩ := isDigit_char hc
      rw [List.foldl_append, List.foldl_cons, List.foldl_nil]
      by_cases hq : q = []
      · subst hq
        have := Spec.Decimal.one h2
        rw [h1] at this
        simpa using this
      · have := Spec.Decimal.snoc (ih q hq h.1 (by simp at hl; omega)) h2
        rwa [h1] at this

/-- Ports as they may stand in a Host header: digits only. -/
def Spec.PortText (p : Option Str) : Prop := ∀ q, p = some q → q.all Char.isDigit = true

/-- The text of a port, with the default. -/
def textOf : Option Str → Str
  | some q => if q = [] then "443".toList else q
  | none => "443".toList

theorem port_number {p : Option Str} (hp : Spec.PortText p) (n : Nat) :
    Spec.Port p n ↔ atoi (textOf p) = some n := by
  have h443 : atoi "443".toList = some 443 := by decide +kernel
  cases p with
  | none =>
    dsimp only [textOf]
    rw [h443]
    constructor
    · intro h; cases h; rfl
    · intro h; cases h; exact .none
  | some q =>
    dsimp only [textOf]
    by_cases hq : q = []
    · subst hq
      rw [if_pos rfl, h443]
      constructor
      · intro h
        cases h with
        | empty => rfl
        | number h => exact absurd rfl (decimal_digits h).1
      · intro h; cases h; exact .empty
    · rw [if_neg hq]
      have hall := hp q rfl
      have hdec := digits_decimal q hq hall
      have hat : atoi q = some (q.foldl (fun n c => 10 * n + (c.toNat - 48)) 0) := by
        have hd := decimal_digits hdec
        unfold atoi
        split
        · exact absurd rfl hd.2.2.2.1
        · exact absurd rfl hd.2.2.2.2
        · unfold digits
          split
          · exact absurd rfl hq
          · rw [if_pos hall]
      rw [hat]
      constructor
      · intro h
        cases h with
        | empty => exact absurd rfl hq
        | number h => rw [(decimal_digits h).2.2.1]
      · intro h
        cases h
        exact .number hdec

/-- C110. HTTP/3 is offered exactly when the backend serves it, the client does not use it already, and
the port of the Host header is one, at just this port; and a value set by the server behind the
proxy is never replaced. -/
theorem alt_svc_exact (r : AltReq) (name : Str) (port : Option Str) (ha : Spec.Authority r.host name port)
    (hp : Spec.PortText port) (v : Str) :
    altSvc r = some v ↔ r.http3Server = true ∧ (∃ l, r.alpn = some l ∧ "h3" ∈ l) ∧ r.negotiated ≠ some "h3" ∧
      ∃ n, Spec.Port port n ∧ 0 < n ∧ n < 65536 ∧
        v = ("h3=\":" ++ toString n ++ "\"; ma=2592000;").toList := by
  unfold altSvc
  by_cases h1 : r.http3Server = true
  · rw [if_neg (by simp [h1])]
    by_cases h2 : r.negotiated = some "h3"
    · rw [if_pos h2]; simp [h2]
    · rw [if_neg h2]
      by_cases h3 : ∃ l, r.alpn = some l ∧ "h3" ∈ l
      · have hc : (r.alpn.getD []).contains "h3" = true := by
          obtain ⟨l, h4, h5⟩ := h3
          rw [h4]; simpa using h5
        rw [if_neg (by rw [hc]; simp)]
        have hport : portText r.host =
            textOf port := by
          unfold portText
          rw [split_authority ha]
          cases port <;> rfl
        rw [hport]
        have key := port_number hp
        constructor
        · intro h
          split at h
          · rename_i n hn
            split at h
            · rename_i hr
              refine ⟨h1, h3, h2, n, (key n).mpr hn, hr.1, hr.2, ?_⟩
              cases h
              rw [String.toList_append, String.toList_append]
            · cases h
          · cases h
        · rintro ⟨-, -, -, n, hn, hr1, hr2, rfl⟩
          rw [(key n).mp hn]
          dsimp only
          rw [if_pos ⟨hr1, hr2⟩, String.toList_append, String.toList_append]
      · have hc : (r.alpn.getD []).contains "h3" = false := by
          cases ho : r.alpn with
          | none => rfl
          | some l =>
            rw [ho] at h3
            simpa using h3
        rw [if_pos (by rw [hc]; rfl)]
        constructor
        · intro h; cases h
        · rintro ⟨-, h, -⟩; exact absurd h h3
  · rw [if_pos (by simpa using h1)]
    simp [h1]

/-- C110, Host headers with a port that is not a number: nothing is offered, except that a plus sign is
accepted. -/
theorem alt_svc_bad_port (r : AltReq) (name q : Str) (ha : Spec.Authority r.host name (some q)) (v : Str)
    (h : altSvc r = some v) :
    q.all Char.isDigit = true ∨ ∃ t, q = '+' :: t ∧ t ≠ [] ∧ t.all Char.isDigit = true := by
  have hd : ∀ {t : Str} {n : Nat}, digits t = some n → t ≠ [] ∧ t.all Char.isDigit = true := by
    intro t n h
    unfold digits at h
    split at h
    · cases h
    · rename_i hne
      split at h
      · rename_i hall; exact ⟨hne, hall⟩
      · cases h
  by_cases hq : q = []
  · subst hq; exact .inl rfl
  have hport : portText r.host = q := by
    unfold portText
    rw [split_authority ha]
    exact if_neg hq
  unfold altSvc at h
  rw [hport] at h
  split at h
  · cases h
  · split at h
    · cases h
    · split at h
      · cases h
      · split at h
        · rename_i n hn
          split at h
          · rename_i hr
            unfold atoi at hn
            split at hn
            · exact .inr ⟨_, rfl, hd hn⟩
            · rename_i t
              cases hx : digits t with
              | none => rw [hx] at hn; cases hn
              | some m =>
                rw [hx] at hn
                simp only [Option.bind_some] at hn
                split at hn
                · cases hn; omega
                · cases hn
            · exact .inl (hd hn).2
          · cases h
        · cases h

/-- C110, forwarded responses: the header is added exactly to successful and redirecting responses that have
none. -/
theorem alt_svc_response (r : AltReq) (status : Nat) (old : Str) :
    (old ≠ [] → altSvcResponse r status old = old) ∧
    (status < 200 ∨ 400 ≤ status → altSvcResponse r status old = old) ∧
    (altSvc r = none → altSvcResponse r status old = old) ∧
    (∀ v, old = [] → 200 ≤ status → status < 400 → altSvc r = some v → altSvcResponse r status old = v) := by
  unfold altSvcResponse
  refine ⟨?_, ?_, ?_, ?_⟩
  · intro h; rw [if_neg (by simp [h])]
  · intro h; rw [if_neg (by omega)]
  · intro h; rw [h]; split <;> rfl
  · intro v h h1 h2 h3; rw [if_pos ⟨h1, h2, h⟩, h3]; rfl

example : Spec.Authority "h:8443".toList "h".toList (some "8443".toList) ∧ Spec.PortText (some "8443".toList) ∧
    altSvc ⟨true, some ["h2", "h3"], some "h2", "h:8443".toList⟩ = some "h3=\":8443\"; ma=2592000;".toList := by
  refine ⟨.namePort (h := "h".toList) (p := "8443".toList) ?_ ?_, ?_, by decide +kernel⟩
  · unfold Spec.Plain; decide
  · unfold Spec.Plain; decide
  · intro q h; cases h; decide

end Verif.Discovery
