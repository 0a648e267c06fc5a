import Verif.Props.Static
/-
C24, C25, C26, C28, C33, C37, C38: who gets which answer.
-/
namespace Verif.Http

open Verif.Path (Str pathClean pathMatches)

/-! ## Specification -/

/-- The policy applies to a request path: no prefixes are configured, or one of them is a prefix
of the path as sent or of its canonical form. -/
def Spec.Covered (s : SSO) (path : Str) : Prop :=
  s.paths = [] ∨ ∃ p ∈ s.paths, p <+: path ∨ p <+: Verif.Path.Spec.clean path

/-- The identity a request proves: the claims of its valid bearer token, else those of its valid
login cookie. An identity needs an email address. -/
def Spec.identity (r : Req) : Option Claims :=
  (r.creds.bearer.or r.creds.authCookie).filter fun cl => cl.email.getD [] ≠ []

/-- The login is recent enough, and was made on this host, if that is demanded. -/
def Spec.Fresh (c : Ctx) (s : SSO) (host : String) (cl : Claims) : Prop :=
  s.forceReAuth = 0 ∨
    (cl.hhash = some (c.hash host.toList) ∧ ∃ t, cl.iat = some t ∧ c.now - t ≤ s.forceReAuth)

/-- ACL semantics for an email address: no list admits everybody; otherwise the address itself
or "@" followed by the domain must be listed. -/
def Spec.Allowed (acl : Option (List Str)) (email : Str) : Prop :=
  ∀ l, acl = some l → email ∈ l ∨ ∃ lp d, email = lp ++ '@' :: d ∧ '@' ∉ lp ∧ '@' :: d ∈ l

/-- The answer shows protected content: a backend server, static files or an endpoint that is
not public. -/
def Spec.Protected : Out → Prop
  | .forward .. => True
  | .static .. => True
  | .endpoint h => h.bypass = false
  | _ => False

/-! ## Lemmas -/

theorem pathMatches_iff (s : SSO) (path : Str) : pathMatches s.paths path = true ↔ Spec.Covered s path := by
  unfold pathMatches Spec.Covered
  rw [Verif.Path.pathClean_canonical]
  split
  · rename_i h; simp [h]
  · rename_i h
    simp only [h, false_or, List.any_eq_true, Bool.or_eq_true, List.isPrefixOf_iff_prefix]

theorem domainOf_eq (lp d : Str) (h : '@' ∉ lp) : domainOf (lp ++ '@' :: d) = d := by
  induction lp with
  | nil => rfl
  | cons c t ih =>
    simp only [List.mem_cons, not_or] at h
    rw [List.cons_append, domainOf]
    · exact ih h.2
    · intro e; exact h.1 e.symm

theorem domain_cases (e : Str) : ('@' ∉ e ∧ domainOf e = []) ∨
    ∃ lp d, e = lp ++ '@' :: d ∧ '@' ∉ lp ∧ domainOf e = d := by
  induction e with
  | nil => left; simp [domainOf]
  | cons c t ih =>
    by_cases hc : c = '@'
    · subst hc; right; exact ⟨[], t, rfl, by simp, rfl⟩
    · have hd : domainOf (c :: t) = domainOf t := by rw [domainOf]; exact fun e => hc e
      rcases ih with ⟨h1, h2⟩ | ⟨lp, d, rfl, h1, h2⟩
      · left; refine ⟨?_, by rw [hd, h2]⟩
        simp [h1]; exact fun e => hc e.symm
      · right; exact ⟨c :: lp, d, rfl, by simp [h1]; exact fun e => hc e.symm, by rw [hd, h2]⟩

/-- What is stored in the context after authentication. -/
theorem authenticate_claims {c : Ctx} {be : Be} {r : Req} {a : Authed}
    (h : authenticate c be r = .ok a) : ∀ cl, a.claims = some cl → Spec.identity r = some cl := by
  intro cl hcl
  unfold authenticate at h
  dsimp only at h
  split at h
  · cases h; cases hcl
  · rename_i s hs
    unfold checkCookies at h
    unfold Spec.identity
    cases hb : r.creds.bearer with
    | some b =>
      rw [hb] at h
      simp only at h
      cases he : b.email with
      | none => rw [he] at h; cases h; cases hcl
      | some e =>
        rw [he] at h; simp only at h
        split at h
        · cases h; cases hcl
        · rename_i hne
          cases h; cases hcl
          simp [he, hne]
    | none =>
      rw [hb] at h
      simp only at h
      cases hc : r.creds.authCookie with
      | none => rw [hc] at h; cases h; cases hcl
      | some b =>
        rw [hc] at h
        simp only at h
        cases he : b.email with
        | none => rw [he] at h; cases h; cases hcl
        | some e =>
          rw [he] at h
          simp only [reduceCtorEq, Option.some.injEq, false_or] at h
          by_cases hne : e = []
          · simp only [hne, if_true] at h; cases h; cases hcl
          · simp only [hne, if_false] at h
            split at h
            · cases h
            · cases h
            · rename_i hm
              split at hm
              · cases hm
              · split at hm
                · cases hm
                · split at hm
                  · cases hm
                  · split at hm <;> cases hm
            · rename_i cl' hm
              have : cl' = b := by
                split at hm
                · cases hm; rfl
                · split at hm
                  · cases hm; rfl
                  · split at hm
                    · cases hm; rfl
                    · split at hm <;> cases hm
              subst this
              rw [he] at h
              simp only [hne, if_false] at h
              cases h; cases hcl
              simp [he, hne]

theorem enforce_ok {c : Ctx} {be : Be} {r : Req} {claims : Option Claims} {s : SSO}
    {ck : List (String × String)} (hs : be.sso = some s) (hcov : Spec.Covered s r.path)
    (h : enforce c be r claims = .ok ck) :
    ∃ cl, claims = some cl ∧ Spec.Fresh c s r.host cl ∧
      (∀ l, s.acl = some l → cl.email.getD [] ∈ l ∨ ('@' :: domainOf (cl.email.getD [])) ∈ l) ∧
      ck = filterCookies r.cookies := by
  unfold enforce at h
  rw [hs] at h
  dsimp only at h
  rw [if_neg (by simp [(pathMatches_iff s r.path).mpr hcov])] at h
  split at h
  · cases h
  · rename_i hn
    cases claims with
    | none => exact absurd rfl hn
    | some cl =>
      refine ⟨cl, rfl, ?_, ?_, ?_⟩
      · unfold Spec.Fresh
        simp only [needLogin, Bool.and_eq_true, bne_iff_ne, ne_eq, Bool.or_eq_true, not_and, not_or,
          Classical.not_not] at hn
        by_cases h0 : s.forceReAuth = 0
        · exact .inl h0
        · right
          obtain ⟨h1, h2⟩ := hn h0
          refine ⟨h1, ?_⟩
          cases hi : cl.iat with
          | none => rw [hi] at h2; simp at h2
          | some t => rw [hi] at h2; simp at h2; exact ⟨t, rfl, h2⟩
      · intro l hl
        rw [hl] at h
        dsimp only at h
        split at h
        · cases h
        · rename_i hx
          by_cases h1 : cl.email.getD [] ∈ l
          · exact .inl h1
          · right; exact Classical.not_not.mp fun h2 => hx ⟨h1, h2⟩
      · cases ha : s.acl with
        | none => rw [ha] at h; cases h; rfl
        | some l =>
          rw [ha] at h
          dsimp only at h
          split at h
          · cases h
          · cases h; rfl

/-- Requests that are processed further, or answered by a local endpoint, passed the policy. -/
theorem localEndpoints_passed {c : Ctx} {be : Be} {r : Req} {claims : Option Claims} :
    (∀ ck, localEndpoints c be r claims = .ok ck → enforce c be r claims = .ok ck) ∧
    (∀ o, localEndpoints c be r claims = .error o → Spec.Protected o →
      ∃ ck, enforce c be r claims = .ok ck) := by
  unfold localEndpoints
  dsimp only
  have henf : ∀ o, enforce c be r claims = .error o → ¬ Spec.Protected o := by
    intro o h
    unfold enforce at h
    split at h
    · cases h
    · split at h
      · cases h
      · split at h
        · cases h; exact id
        · rename_i s _ _ _
          cases ha : s.acl with
          | none => rw [ha] at h; cases h
          | some l =>
            rw [ha] at h
            dsimp only at h
            rw [apply_ite (· = Except.error o)] at h
            simp only [Except.error.injEq, reduceCtorEq, if_false_right] at h
            rw [← h.2]; exact id
  split
  · rename_i hd hf
    cases hb : hd.bypass with
    | true =>
      simp only [if_true]
      constructor
      · intro ck h; split at h <;> cases h
      · intro o h hp
        split at h
        · cases h; exact absurd hp id
        · cases h; simp [Spec.Protected, hb] at hp
    | false =>
      simp only [Bool.false_eq_true, if_false]
      cases he : enforce c be r claims with
      | error o' =>
        constructor
        · intro ck h; cases h
        · intro o h hp; cases h; exact absurd hp (henf _ he)
      | ok ck' =>
        constructor
        · intro ck h; dsimp only at h; split at h <;> cases h
        · intro o h hp; exact ⟨ck', rfl⟩
  · cases he : enforce c be r claims with
    | error o' =>
      constructor
      · intro ck h; cases h
      · intro o h hp; cases h; exact absurd hp (henf _ he)
    | ok ck' =>
      constructor
      · intro ck h
        dsimp only at h
        split at h
        · cases h
        · cases h; rfl
      · intro o h hp; exact ⟨ck', rfl⟩

theorem authenticate_error {c : Ctx} {be : Be} {r : Req} {o : Out}
    (h : authenticate c be r = .error o) : ¬ Spec.Protected o := by
  unfold authenticate at h
  dsimp only at h
  split at h
  · cases h
  · split at h
    · cases h; exact id
    · cases h; exact id
    · cases h
    · split at h
      · cases h
      · split at h <;> cases h

/-- Protected content is only shown after the policy was enforced on the authenticated
claims. -/
theorem serve_protected {c : Ctx} {be : Be} {r : Req} (h : Spec.Protected (serve c be r)) :
    ∃ a ck, authenticate c be r = .ok a ∧ enforce c be r a.claims = .ok ck := by
  unfold serve at h
  cases ha : authenticate c be r with
  | error o => rw [ha] at h; exact absurd h (authenticate_error ha)
  | ok a =>
    rw [ha] at h
    dsimp only at h
    cases hl : localEndpoints c be r a.claims with
    | error o =>
      rw [hl] at h
      obtain ⟨ck, hck⟩ := localEndpoints_passed.2 o hl h
      exact ⟨a, ck, rfl, hck⟩
    | ok ck => exact ⟨a, ck, rfl, localEndpoints_passed.1 ck hl⟩

theorem allowed_iff (acl : Option (List Str)) (e : Str) (he : '@' ∈ e) :
    (∀ l, acl = some l → e ∈ l ∨ ('@' :: domainOf e) ∈ l) ↔ Spec.Allowed acl e := by
  unfold Spec.Allowed
  constructor
  · intro h l hl
    rcases h l hl with h | h
    · exact .inl h
    · right
      rcases domain_cases e with ⟨h1, _⟩ | ⟨lp, d, rfl, h1, h2⟩
      · exact absurd he h1
      · exact ⟨lp, d, rfl, h1, by rw [h2] at h; exact h⟩
  · intro h l hl
    rcases h l hl with h | ⟨lp, d, rfl, h1, h2⟩
    · exact .inl h
    · right; rw [domainOf_eq lp d h1]; exact h2

/-! ## C24, C25, C26, C28 -/

/-- C24 and C25. On a backend with single sign-on, a request whose path is covered by the policy
(raw or in canonical form) is answered with protected content only if it proves an identity
that is fresh enough and that the ACL allows. Identities without '@' are the subject of
`acl_at_sign_violated`. -/
theorem sso_enforced (c : Ctx) (be : Be) (r : Req) (s : SSO) (hs : be.sso = some s)
    (hcov : Spec.Covered s r.path) (h : Spec.Protected (serve c be r)) :
    ∃ cl e, Spec.identity r = some cl ∧ cl.email = some e ∧ e ≠ [] ∧
      Spec.Fresh c s r.host cl ∧ ('@' ∈ e → Spec.Allowed s.acl e) ∧
      ∀ l, s.acl = some l → e ∈ l ∨ ['@'] ∈ l ∨ '@' ∈ e := by
  obtain ⟨a, ck, h1, h2⟩ := serve_protected h
  obtain ⟨cl, h3, h4, h5, _⟩ := enforce_ok hs hcov h2
  have hid := authenticate_claims h1 cl h3
  have hem : ∃ e, cl.email = some e ∧ e ≠ [] := by
    unfold Spec.identity at hid
    rw [Option.filter_eq_some_iff] at hid
    have := hid.2
    cases he : cl.email with
    | none => rw [he] at this; simp at this
    | some e => rw [he] at this; exact ⟨e, rfl, by simpa using this⟩
  obtain ⟨e, he, hne⟩ := hem
  rw [he] at h5
  simp only [Option.getD_some] at h5
  refine ⟨cl, e, hid, he, hne, h4, fun hat => (allowed_iff _ _ hat).mp h5, ?_⟩
  intro l hl
  rcases h5 l hl with h | h
  · exact .inl h
  · rcases domain_cases e with ⟨h1, h2⟩ | ⟨lp, d, rfl, h1, h2⟩
    · right; left; rw [h2] at h; exact h
    · right; right; simp

/-- C28, spelled out. With a re-authentication period, protected content is shown only for a
login on this very host that is no older than the period. -/
theorem force_reauth (c : Ctx) (be : Be) (r : Req) (s : SSO) (hs : be.sso = some s)
    (hd : s.forceReAuth ≠ 0) (hcov : Spec.Covered s r.path) (h : Spec.Protected (serve c be r)) :
    ∃ cl t, Spec.identity r = some cl ∧ cl.hhash = some (c.hash r.host.toList) ∧
      cl.iat = some t ∧ c.now - t ≤ s.forceReAuth := by
  obtain ⟨cl, e, h1, _, _, h4, _⟩ := sso_enforced c be r s hs hcov h
  rcases h4 with h4 | ⟨h5, t, h6, h7⟩
  · exact absurd h4 hd
  · exact ⟨cl, t, h1, h5, h6, h7⟩

/-- C25, spelled out for one prefix: whatever dots and slashes the path contains, a request
without identity gets nothing protected if the prefix matches the raw or the canonical path. -/
theorem no_path_bypass (c : Ctx) (be : Be) (r : Req) (s : SSO) (hs : be.sso = some s) (p : Str)
    (hp : p ∈ s.paths) (hm : p <+: r.path ∨ p <+: Verif.Path.Spec.clean r.path)
    (hid : Spec.identity r = none) : ¬ Spec.Protected (serve c be r) := by
  intro h
  obtain ⟨cl, e, h1, _⟩ := sso_enforced c be r s hs (.inr ⟨p, hp, hm⟩) h
  rw [hid] at h1; cases h1

/-- The only answers the authorization step itself gives. -/
def Spec.Refusal (o : Out) : Prop := o = .login ∨ o = .denied

theorem enforce_admits {c : Ctx} {be : Be} {r : Req} {s : SSO} {cl : Claims} {e : Str}
    (hs : be.sso = some s) (he : cl.email = some e) (hf : Spec.Fresh c s r.host cl)
    (ha : Spec.Allowed s.acl e) : ∃ ck, enforce c be r (some cl) = .ok ck := by
  unfold enforce
  rw [hs]
  dsimp only
  split
  · exact ⟨_, rfl⟩
  · rw [if_neg]
    · cases hacl : s.acl with
      | none => exact ⟨_, rfl⟩
      | some l =>
        dsimp only
        rw [if_neg]
        · exact ⟨_, rfl⟩
        · rw [he]
          simp only [Option.getD_some]
          rintro ⟨h1, h2⟩
          rcases ha l hacl with h | ⟨lp, d, rfl, h3, h4⟩
          · exact h1 h
          · rw [domainOf_eq lp d h3] at h2; exact h2 h4
    · simp only [needLogin, Bool.and_eq_true, bne_iff_ne, ne_eq, Bool.or_eq_true, not_and, not_or,
        Classical.not_not]
      intro h0
      rcases hf with hf | ⟨h1, t, h2, h3⟩
      · exact absurd hf h0
      · refine ⟨h1, ?_⟩
        rw [h2]; simpa using h3

theorem authenticate_identity {c : Ctx} {be : Be} {r : Req} {s : SSO} {cl : Claims} {a : Authed}
    (hs : be.sso = some s) (hid : Spec.identity r = some cl)
    (h : authenticate c be r = .ok a) : a.claims = some cl := by
  have hem : ∃ e, cl.email = some e ∧ e ≠ [] := by
    unfold Spec.identity at hid
    rw [Option.filter_eq_some_iff] at hid
    have := hid.2
    cases he : cl.email with
    | none => rw [he] at this; simp at this
    | some e => rw [he] at this; exact ⟨e, rfl, by simpa using this⟩
  obtain ⟨e, he, hne⟩ := hem
  unfold Spec.identity at hid
  rw [Option.filter_eq_some_iff] at hid
  unfold authenticate at h
  rw [hs] at h
  dsimp only at h
  have hgo : ∀ k, checkCookies c be s r = k → k = .go (some cl) ∨ k = .setID ∨ k = .error500 := by
    intro k hk
    unfold checkCookies at hk
    cases hbb : r.creds.bearer with
    | some b =>
      rw [hbb] at hk hid; simp at hid; subst hk; left; simp [hid.1]
    | none =>
      rw [hbb] at hk hid
      simp only [Option.none_or] at hid
      rw [hid.1] at hk
      simp only [he, reduceCtorEq, Option.some.injEq, hne, or_self, if_false] at hk
      subst hk
      split
      · exact .inl rfl
      · split
        · exact .inl rfl
        · split
          · exact .inl rfl
          · split
            · exact .inr (.inl rfl)
            · exact .inr (.inr rfl)
  rcases hgo _ rfl with hk | hk | hk
  · rw [hk] at h
    simp only [he, hne, if_false] at h
    cases h; rfl
  · rw [hk] at h; cases h
  · rw [hk] at h; cases h

/-- C26, the other direction. A request that proves a fresh identity whose email the ACL allows
is never refused by the policy. -/
theorem sso_admits (c : Ctx) (be : Be) (r : Req) (s : SSO) (hs : be.sso = some s) (cl : Claims)
    (e : Str) (hid : Spec.identity r = some cl) (he : cl.email = some e)
    (hf : Spec.Fresh c s r.host cl) (ha : Spec.Allowed s.acl e) :
    ¬ Spec.Refusal (serve c be r) := by
  unfold serve
  cases hau : authenticate c be r with
  | error o =>
    dsimp only
    unfold authenticate at hau
    rw [hs] at hau
    dsimp only at hau
    split at hau
    · cases hau; simp [Spec.Refusal]
    · cases hau; simp [Spec.Refusal]
    · cases hau
    · split at hau
      · cases hau
      · split at hau <;> cases hau
  | ok a =>
    dsimp only
    have hcl := authenticate_identity hs hid hau
    obtain ⟨ck, hck⟩ := enforce_admits (r := r) hs he hf ha
    cases hl : localEndpoints c be r a.claims with
    | error o =>
      dsimp only
      rw [hcl] at hl
      unfold localEndpoints at hl
      dsimp only at hl
      split at hl
      · split at hl
        · rename_i o' ho
          split at ho
          · cases ho
          · rw [hck] at ho; cases ho
        · split at hl <;> cases hl <;> simp [Spec.Refusal]
      · rw [hck] at hl
        dsimp only at hl
        split at hl
        · cases hl; simp [Spec.Refusal]
        · cases hl
    | ok ck' =>
      dsimp only
      split
      · unfold reverseProxy
        dsimp only
        generalize (if r.host = "" then c.serverName else r.host) = host
        split
        · simp [Spec.Refusal]
        split
        · simp [Spec.Refusal]
        split
        · simp [Spec.Refusal]
        · simp [Spec.Refusal]
        · split
          · simp [Spec.Refusal]
          · split <;> simp [Spec.Refusal]
      · simp [Spec.Refusal]

/-- C26. For an authenticated user whose email has a '@' on a backend that covers every path and
has no endpoints of its own, permission is denied exactly when the ACL says so. -/
theorem acl_exact (c : Ctx) (be : Be) (r : Req) (s : SSO) (hs : be.sso = some s)
    (hp : s.paths = []) (hh : be.handlers = []) (hf : s.forceReAuth = 0) (hg : s.genID = false)
    (cl : Claims) (e : Str) (hb : r.creds.bearer = none) (hc : r.creds.authCookie = some cl)
    (he : cl.email = some e) (hat : '@' ∈ e) :
    serve c be r = .denied ↔ ¬ Spec.Allowed s.acl e := by
  have hne : e ≠ [] := by intro h; subst h; cases hat
  have hid : Spec.identity r = some cl := by
    unfold Spec.identity; rw [hb, hc]; simp [he, hne]
  constructor
  · intro h ha
    have := sso_admits c be r s hs cl e hid he (.inl hf) ha
    exact this (.inr h)
  · intro ha
    have hau : authenticate c be r = .ok ⟨if s.setUserID then (r.headers.del uidHeader).set uidHeader e
        else r.headers.del uidHeader, some cl⟩ := by
      unfold authenticate checkCookies
      rw [hs]
      simp [hb, hc, he, hne, hg]
    have hen : enforce c be r (some cl) = .error .denied := by
      unfold enforce
      rw [hs]
      dsimp only
      have hcov : pathMatches s.paths r.path = true := (pathMatches_iff s r.path).mpr (.inl hp)
      rw [if_neg (by simp [hcov]), if_neg (by simp [needLogin, hf])]
      have := mt (allowed_iff s.acl e hat).mp ha
      cases hacl : s.acl with
      | none => rw [hacl] at this; exact absurd (fun l hl => by cases hl) this
      | some l =>
        rw [hacl] at this
        dsimp only
        rw [if_pos]
        rw [he]
        simp only [Option.getD_some]
        constructor
        · intro h1; exact this fun l' hl => by cases hl; exact .inl h1
        · intro h1; exact this fun l' hl => by cases hl; exact .inr h1
    unfold serve localEndpoints
    rw [hau]
    simp [hh, hen]

/-- C26 at the edges: with an empty list nobody gets protected content on covered paths. -/
theorem acl_empty (c : Ctx) (be : Be) (r : Req) (s : SSO) (hs : be.sso = some s)
    (ha : s.acl = some []) (hcov : Spec.Covered s r.path) : ¬ Spec.Protected (serve c be r) := by
  intro h
  obtain ⟨a, ck, h1, h2⟩ := serve_protected h
  obtain ⟨cl, _, _, h5, _⟩ := enforce_ok hs hcov h2
  simpa using h5 [] ha

/-- C26 fails for one kind of entry: the entry "@" admits every identity whose email contains no
'@' at all, although its domain is not listed. -/
theorem acl_at_sign_violated :
    ∃ (c : Ctx) (be : Be) (r : Req) (e : Str), '@' ∉ e ∧ be.sso = some { acl := some [['@']] } ∧
      r.creds.authCookie = some { email := some e } ∧ ¬ Spec.Allowed (some [['@']]) e ∧
      Spec.Protected (serve c be r) := by
  refine ⟨{}, { reverse := false, sso := some { acl := some [['@']] } },
    { creds := { authCookie := some { email := some "root".toList } } }, "root".toList,
    by decide, rfl, rfl, ?_, ?_⟩
  · intro h
    rcases h _ rfl with h | ⟨lp, d, h1, h2, h3⟩
    · revert h; decide
    · have : '@' ∈ "root".toList := by rw [h1]; simp
      revert this; decide
  · have : serve {} { reverse := false, sso := some { acl := some [['@']] } }
        { creds := { authCookie := some { email := some "root".toList } } } = .static .notFound [] := by
      rfl
    rw [this]; trivial

/-- Non-vacuity of the SSO theorems: a covered path reached by a detour, with and without
credentials. -/
example :
    let be : Be := { reverse := false, docRoot := "/w".toList,
                     sso := some { paths := ["/private/".toList], acl := some ["@example.com".toList] } }
    let bob : Creds := { authCookie := some { email := some "bob@example.com".toList } }
    let eve : Creds := { authCookie := some { email := some "eve@example.org".toList } }
    let p := "/pub/../private/x".toList
    (Spec.Covered { paths := ["/private/".toList] } p) ∧
    (match serve {} be { path := p } with | .login => True | _ => False) ∧
    (match serve {} be { path := p, creds := eve } with | .denied => True | _ => False) ∧
    (match serve {} be { path := p, creds := bob } with | .static (.redirect q) _ => q = "/private/x".toList | _ => False) := by
  intro be bob eve p
  refine ⟨.inr ⟨"/private/".toList, by simp, .inr ⟨"x".toList, by decide⟩⟩, ?_, ?_, ?_⟩
  · exact trivial
  · exact trivial
  · exact rfl

end Verif.Http
