import Verif.Model.Endpoints
import Verif.Props.Handlers
/-!
C96, C97: the endpoints that a configuration creates, and the ACL of passkey registration.
-/
namespace Verif.Endpoints

open Verif.Path (Str pathClean)

/-! ## Specification -/

/-- The endpoints anybody may use. -/
def Spec.public : Kind → Bool
  | .ssoStatus | .ssoStyle | .ssoLogin | .ssoLogout | .ssoIcon | .passkeyEndpoints => true
  | .oidcConfig | .oidcToken | .oidcUserinfo | .oidcJWKS | .exportJWKS => true
  | .callback _ | .pkiCert _ | .pkiCRL _ | .pkiOCSP _ | .sshKey _ => true
  | .managePasskeys | .oidcAuthorization | .metrics | .icon | .pprof _ => false
  | .pkiManage _ | .sshCert _ | .webSocket _ => false

/-- The endpoints that also answer below their path. -/
def Spec.subPaths : Kind → Bool
  | .pkiOCSP _ => true
  | .pprof p => p = "index"
  | _ => false

def Spec.isCallback : Kind → Bool
  | .callback _ => true
  | _ => false

/-- The endpoints at fixed paths of a backend. -/
inductive Spec.Fixed (pprof : Bool) (be : Be) : Kind → Str → Prop
  | sso {k p} : be.sso.isSome → (k, p) ∈
      [(Kind.ssoStatus, "/.sso/"), (.ssoStyle, "/.sso/style.css"), (.ssoLogin, "/.sso/login"),
        (.ssoLogout, "/.sso/logout"), (.ssoIcon, "/.sso/favicon.ico")] →
      Fixed pprof be k p.toList
  | passkey {s k p} : be.sso = some s → s.passkey = true → (k, p) ∈
      [(Kind.managePasskeys, "/.sso/passkeys"),
        (.passkeyEndpoints, "/.well-known/passkey-endpoints")] →
      Fixed pprof be k p.toList
  | oidc {s pre k p} : be.sso = some s → s.oidcPrefix = some pre → be.serverNames ≠ [] → (k, p) ∈
      [(Kind.oidcConfig, "/.well-known/openid-configuration"),
        (.oidcAuthorization, "/authorization"), (.oidcToken, "/token"),
        (.oidcUserinfo, "/userinfo"), (.oidcJWKS, "/jwks")] →
      Fixed pprof be k (pre ++ p.toList)
  | jwks : be.exportJWKS ≠ [] → Fixed pprof be .exportJWKS be.exportJWKS
  | console {k p} : be.console = true → (k, p) ∈ [(Kind.metrics, "/"), (.icon, "/favicon.ico")] →
      Fixed pprof be k p.toList
  | pprof {k p} : be.console = true → pprof = true → (k, p) ∈
      [(Kind.pprof "index", "/debug/pprof"), (.pprof "cmdline", "/debug/pprof/cmdline"),
        (.pprof "profile", "/debug/pprof/profile"), (.pprof "symbol", "/debug/pprof/symbol"),
        (.pprof "trace", "/debug/pprof/trace")] →
      Fixed pprof be k p.toList

/-- The endpoints the configuration asks for at URLs. -/
inductive Spec.AtUrl (s : Src) : Kind → String → Prop
  | callback {n u} : (n, u) ∈ s.callbacks → AtUrl s (.callback n) u
  | pkiCert {p u} : p ∈ s.pki → u ∈ p.issuing → AtUrl s (.pkiCert p.name) u
  | pkiCRL {p u} : p ∈ s.pki → u ∈ p.crl → AtUrl s (.pkiCRL p.name) u
  | pkiOCSP {p u} : p ∈ s.pki → u ∈ p.ocsp → AtUrl s (.pkiOCSP p.name) u
  | pkiManage {p} : p ∈ s.pki → p.endpoint ≠ "" → AtUrl s (.pkiManage p.name) p.endpoint
  | sshKey {p} : p ∈ s.ssh → p.publicKey ≠ "" → AtUrl s (.sshKey p.name) p.publicKey
  | sshCert {p} : p ∈ s.ssh → p.certificate ≠ "" → AtUrl s (.sshCert p.name) p.certificate
  | webSocket {u a} : (u, a) ∈ s.webSockets → AtUrl s (.webSocket a) u

/-- Backend `i` is the first one that lists the host among its server names. -/
def Spec.First (bs : List Be) (host : String) (i : Nat) : Prop :=
  (∃ b, bs[i]? = some b ∧ host ∈ b.serverNames) ∧
  ∀ j b, j < i → bs[j]? = some b → host ∉ b.serverNames

/-- The endpoint that does `k` at a host (or at all hosts of the backend) and path: whether it skips
the SSO policy and whether it answers below its path depend on what it does only. -/
def Spec.entry (k : Kind) (host : String) (path : Str) : Entry :=
  ⟨k, host, path, Spec.public k, Spec.subPaths k, Spec.isCallback k⟩

/-! ## The table -/

theorem backendOf_iff (bs : List Be) (host : String) (i : Nat) :
    backendOf bs host = some i ↔ Spec.First bs host i := by
  unfold backendOf Spec.First
  rw [List.findIdx?_eq_some_iff_getElem]
  constructor
  · rintro ⟨h, h1, h2⟩
    refine ⟨⟨bs[i], List.getElem?_eq_getElem h, by simpa using h1⟩, ?_⟩
    intro j b hj hb
    obtain ⟨hj', rfl⟩ := List.getElem?_eq_some_iff.1 hb
    simpa using h2 j hj
  · rintro ⟨⟨b, hb, hm⟩, h2⟩
    obtain ⟨h, rfl⟩ := List.getElem?_eq_some_iff.1 hb
    refine ⟨h, by simpa using hm, ?_⟩
    intro j hj
    simpa using h2 j _ hj (List.getElem?_eq_getElem (by omega))

theorem mem_own (pprof : Bool) (be : Be) (e : Entry) :
    e ∈ own pprof be ↔ ∃ k p, Spec.Fixed pprof be k p ∧ e = Spec.entry k "" p := by
  constructor
  · intro h
    unfold own at h
    rw [List.mem_append, List.mem_append] at h
    rcases h with (h | h) | h
    · cases hs : be.sso with
      | none => rw [hs] at h; cases h
      | some s =>
        rw [hs] at h
        dsimp only at h
        rw [List.mem_append, List.mem_append] at h
        rcases h with (h | h) | h
        · have hh : ∀ (k : Kind) (p : String), (k, p) ∈ _ → Spec.Fixed pprof be k p.toList :=
            fun k p hm => Spec.Fixed.sso (by rw [hs]; rfl) hm
          simp only [ssoPages, List.mem_cons, List.not_mem_nil, or_false] at h
          rcases h with rfl | rfl | rfl | rfl | rfl
          · exact ⟨_, _, hh .ssoStatus _ (by simp), rfl⟩
          · exact ⟨_, _, hh .ssoStyle _ (by simp), rfl⟩
          · exact ⟨_, _, hh .ssoLogin _ (by simp), rfl⟩
          · exact ⟨_, _, hh .ssoLogout _ (by simp), rfl⟩
          · exact ⟨_, _, hh .ssoIcon _ (by simp), rfl⟩
        · split at h
          · rename_i hp
            have hh : ∀ (k : Kind) (p : String), (k, p) ∈ _ → Spec.Fixed pprof be k p.toList :=
              fun k p hm => Spec.Fixed.passkey hs hp hm
            simp only [passkeyPages, List.mem_cons, List.not_mem_nil, or_false] at h
            rcases h with rfl | rfl
            · exact ⟨_, _, hh .managePasskeys _ (by simp), rfl⟩
            · exact ⟨_, _, hh .passkeyEndpoints _ (by simp), rfl⟩
          · cases h
        · cases ho : s.oidcPrefix with
          | none => rw [ho] at h; cases h
          | some pre =>
            rw [ho] at h
            dsimp only at h
            split at h
            · cases h
            · rename_i hn
              have hh : ∀ (k : Kind) (p : String), (k, p) ∈ _ → Spec.Fixed pprof be k (pre ++ p.toList) :=
                fun k p hm => Spec.Fixed.oidc hs ho hn hm
              simp only [oidcPages, List.mem_cons, List.not_mem_nil, or_false] at h
              rcases h with rfl | rfl | rfl | rfl | rfl
              · exact ⟨_, _, hh .oidcConfig _ (by simp), rfl⟩
              · exact ⟨_, _, hh .oidcAuthorization _ (by simp), rfl⟩
              · exact ⟨_, _, hh .oidcToken _ (by simp), rfl⟩
              · exact ⟨_, _, hh .oidcUserinfo _ (by simp), rfl⟩
              · exact ⟨_, _, hh .oidcJWKS _ (by simp), rfl⟩
    · split at h
      · cases h
      · rename_i hj
        simp only [List.mem_cons, List.not_mem_nil, or_false] at h
        subst h
        exact ⟨_, _, .jwks hj, rfl⟩
    · split at h
      · rename_i hc
        rw [List.mem_append] at h
        rcases h with h | h
        · have hh : ∀ (k : Kind) (p : String), (k, p) ∈ _ → Spec.Fixed pprof be k p.toList :=
            fun k p hm => Spec.Fixed.console hc hm
          simp only [List.mem_cons, List.not_mem_nil, or_false] at h
          rcases h with rfl | rfl
          · exact ⟨_, _, hh .metrics _ (by simp), rfl⟩
          · exact ⟨_, _, hh .icon _ (by simp), rfl⟩
        · unfold pprofPages at h
          split at h
          · rename_i hp
            have hh : ∀ (k : Kind) (p : String), (k, p) ∈ _ → Spec.Fixed pprof be k p.toList :=
              fun k p hm => Spec.Fixed.pprof hc hp hm
            simp only [List.mem_cons, List.not_mem_nil, or_false] at h
            rcases h with rfl | rfl | rfl | rfl | rfl
            · exact ⟨_, _, hh (.pprof "index") "/debug/pprof" (by simp), by decide +kernel⟩
            · exact ⟨_, _, hh (.pprof "cmdline") "/debug/pprof/cmdline" (by simp), by decide +kernel⟩
            · exact ⟨_, _, hh (.pprof "profile") "/debug/pprof/profile" (by simp), by decide +kernel⟩
            · exact ⟨_, _, hh (.pprof "symbol") "/debug/pprof/symbol" (by simp), by decide +kernel⟩
            · exact ⟨_, _, hh (.pprof "trace") "/debug/pprof/trace" (by simp), by decide +kernel⟩
          · cases h
      · cases h
  · rintro ⟨k, p, hf, rfl⟩
    unfold own
    rw [List.mem_append, List.mem_append]
    cases hf with
    | sso hs hm =>
      obtain ⟨s, hs⟩ := Option.isSome_iff_exists.1 hs
      left; left
      rw [hs]
      dsimp only
      rw [List.mem_append, List.mem_append]
      left; left
      simp only [List.mem_cons, List.not_mem_nil, or_false, Prod.mk.injEq] at hm
      rcases hm with ⟨rfl, rfl⟩ | ⟨rfl, rfl⟩ | ⟨rfl, rfl⟩ | ⟨rfl, rfl⟩ | ⟨rfl, rfl⟩ <;>
        simp [ssoPages, Spec.entry, Spec.public, Spec.subPaths, Spec.isCallback]
    | @passkey s k p hs hp hm =>
      left; left
      rw [hs]
      dsimp only
      rw [List.mem_append, List.mem_append, if_pos hp]
      left; right
      simp only [List.mem_cons, List.not_mem_nil, or_false, Prod.mk.injEq] at hm
      rcases hm with ⟨rfl, rfl⟩ | ⟨rfl, rfl⟩ <;>
        simp [passkeyPages, Spec.entry, Spec.public, Spec.subPaths, Spec.isCallback]
    | @oidc s pre k p hs ho hn hm =>
      left; left
      rw [hs]
      dsimp only
      rw [List.mem_append, List.mem_append, ho]
      right
      dsimp only
      rw [if_neg hn]
      simp only [List.mem_cons, List.not_mem_nil, or_false, Prod.mk.injEq] at hm
      rcases hm with ⟨rfl, rfl⟩ | ⟨rfl, rfl⟩ | ⟨rfl, rfl⟩ | ⟨rfl, rfl⟩ | ⟨rfl, rfl⟩ <;>
        simp [oidcPages, Spec.entry, Spec.public, Spec.subPaths, Spec.isCallback]
    | jwks hj =>
      left; right
      rw [if_neg hj]
      simp [Spec.entry, Spec.public, Spec.subPaths, Spec.isCallback]
    | console hc hm =>
      right
      rw [if_pos hc, List.mem_append]
      left
      simp only [List.mem_cons, List.not_mem_nil, or_false, Prod.mk.injEq] at hm
      rcases hm with ⟨rfl, rfl⟩ | ⟨rfl, rfl⟩ <;>
        simp [Spec.entry, Spec.public, Spec.subPaths, Spec.isCallback]
    | pprof hc hp hm =>
      right
      rw [if_pos hc, List.mem_append]
      right
      unfold pprofPages
      rw [if_pos hp]
      simp only [List.mem_cons, List.not_mem_nil, or_false, Prod.mk.injEq] at hm
      rcases hm with ⟨rfl, rfl⟩ | ⟨rfl, rfl⟩ | ⟨rfl, rfl⟩ | ⟨rfl, rfl⟩ | ⟨rfl, rfl⟩ <;>
        simp [Spec.entry, Spec.public, Spec.subPaths, Spec.isCallback]

theorem mem_requests (s : Src) (e : Entry) (u : String) :
    (e, u) ∈ requests s ↔ ∃ k, Spec.AtUrl s k u ∧ e = Spec.entry k "" [] := by
  constructor
  · intro h
    unfold requests at h
    rw [List.mem_append, List.mem_append, List.mem_append] at h
    rcases h with ((h | h) | h) | h
    · obtain ⟨c, hc, he⟩ := List.mem_map.1 h
      cases he
      exact ⟨_, .callback hc, rfl⟩
    · obtain ⟨p, hp, h⟩ := List.mem_flatMap.1 h
      rw [List.mem_append, List.mem_append, List.mem_append] at h
      rcases h with ((h | h) | h) | h
      · obtain ⟨x, hx, he⟩ := List.mem_map.1 h
        cases he
        exact ⟨_, .pkiCert hp hx, rfl⟩
      · obtain ⟨x, hx, he⟩ := List.mem_map.1 h
        cases he
        exact ⟨_, .pkiCRL hp hx, rfl⟩
      · obtain ⟨x, hx, he⟩ := List.mem_map.1 h
        cases he
        exact ⟨_, .pkiOCSP hp hx, rfl⟩
      · split at h
        · cases h
        · rename_i hn
          simp only [List.mem_cons, List.not_mem_nil, or_false, Prod.mk.injEq] at h
          obtain ⟨rfl, rfl⟩ := h
          exact ⟨_, .pkiManage hp hn, rfl⟩
    · obtain ⟨p, hp, h⟩ := List.mem_flatMap.1 h
      rw [List.mem_append] at h
      rcases h with h | h
      · split at h
        · cases h
        · rename_i hn
          simp only [List.mem_cons, List.not_mem_nil, or_false, Prod.mk.injEq] at h
          obtain ⟨rfl, rfl⟩ := h
          exact ⟨_, .sshKey hp hn, rfl⟩
      · split at h
        · cases h
        · rename_i hn
          simp only [List.mem_cons, List.not_mem_nil, or_false, Prod.mk.injEq] at h
          obtain ⟨rfl, rfl⟩ := h
          exact ⟨_, .sshCert hp hn, rfl⟩
    · obtain ⟨c, hc, he⟩ := List.mem_map.1 h
      cases he
      exact ⟨_, .webSocket hc, rfl⟩
  · rintro ⟨k, hk, rfl⟩
    unfold requests
    rw [List.mem_append, List.mem_append, List.mem_append]
    cases hk with
    | callback hc => exact .inl (.inl (.inl (List.mem_map.2 ⟨_, hc, rfl⟩)))
    | pkiCert hp hx =>
      refine .inl (.inl (.inr (List.mem_flatMap.2 ⟨_, hp, ?_⟩)))
      rw [List.mem_append, List.mem_append, List.mem_append]
      exact .inl (.inl (.inl (List.mem_map.2 ⟨_, hx, rfl⟩)))
    | pkiCRL hp hx =>
      refine .inl (.inl (.inr (List.mem_flatMap.2 ⟨_, hp, ?_⟩)))
      rw [List.mem_append, List.mem_append, List.mem_append]
      exact .inl (.inl (.inr (List.mem_map.2 ⟨_, hx, rfl⟩)))
    | pkiOCSP hp hx =>
      refine .inl (.inl (.inr (List.mem_flatMap.2 ⟨_, hp, ?_⟩)))
      rw [List.mem_append, List.mem_append, List.mem_append]
      exact .inl (.inr (List.mem_map.2 ⟨_, hx, rfl⟩))
    | pkiManage hp hn =>
      refine .inl (.inl (.inr (List.mem_flatMap.2 ⟨_, hp, ?_⟩)))
      rw [List.mem_append, if_neg hn]
      exact .inr List.mem_cons_self
    | sshKey hp hn =>
      refine .inl (.inr (List.mem_flatMap.2 ⟨_, hp, ?_⟩))
      rw [List.mem_append, if_neg hn]
      exact .inl List.mem_cons_self
    | sshCert hp hn =>
      refine .inl (.inr (List.mem_flatMap.2 ⟨_, hp, ?_⟩))
      rw [List.mem_append, if_neg hn]
      exact .inr List.mem_cons_self
    | webSocket hc => exact .inr (List.mem_map.2 ⟨_, hc, rfl⟩)

theorem add_table (split : String → Option (String × Str)) (bs : List Be) (st : State)
    (q : Entry × String) (i : Nat) (e : Entry) :
    e ∈ (addLocalHandler split bs st q).table i ↔
      e ∈ st.table i ∨ ∃ host path, split q.2 = some (host, path) ∧
        backendOf bs host = some i ∧ e = { q.1 with host := host, path := path } := by
  unfold addLocalHandler
  cases hs : split q.2 with
  | none => simp
  | some hp =>
    obtain ⟨host, path⟩ := hp
    dsimp only
    cases hb : backendOf bs host with
    | none =>
      dsimp only
      constructor
      · exact .inl
      · rintro (h | ⟨h', p', h1, h2, -⟩)
        · exact h
        · cases h1; rw [hb] at h2; cases h2
    | some j =>
      dsimp only
      by_cases hij : i = j
      · rw [if_pos hij, List.mem_append, List.mem_singleton]
        refine or_congr Iff.rfl ?_
        constructor
        · intro h; exact ⟨host, path, rfl, by rw [hb, hij], h⟩
        · rintro ⟨h', p', h1, -, h3⟩
          cases h1
          exact h3
      · rw [if_neg hij]
        constructor
        · exact .inl
        · rintro (h | ⟨h', p', h1, h2, -⟩)
          · exact h
          · cases h1
            rw [hb] at h2
            cases h2
            exact absurd rfl hij

theorem fold_table (split : String → Option (String × Str)) (bs : List Be)
    (qs : List (Entry × String)) : ∀ (st : State) (i : Nat) (e : Entry),
    e ∈ (qs.foldl (addLocalHandler split bs) st).table i ↔
      e ∈ st.table i ∨ ∃ q ∈ qs, ∃ host path, split q.2 = some (host, path) ∧
        backendOf bs host = some i ∧ e = { q.1 with host := host, path := path } := by
  induction qs with
  | nil => intro st i e; simp
  | cons q qs ih =>
    intro st i e
    rw [List.foldl_cons, ih, add_table]
    constructor
    · rintro ((h | h) | ⟨q', hq, h⟩)
      · exact .inl h
      · exact .inr ⟨q, List.mem_cons_self, h⟩
      · exact .inr ⟨q', List.mem_cons_of_mem _ hq, h⟩
    · rintro (h | ⟨q', hq, h⟩)
      · exact .inl (.inl h)
      · rcases List.mem_cons.1 hq with rfl | hq
        · exact .inl (.inr h)
        · exact .inr ⟨q', hq, h⟩

/-- C96. The endpoints of backend `i` are exactly these: the ones at fixed paths that its settings ask
for, for any host, and the ones the configuration asks for at URLs whose host it is the first backend
to list. Whether an endpoint skips the SSO policy is decided by what it does: only the public ones
do. -/
theorem table_exact (split : String → Option (String × Str)) (s : Src) (i : Nat) (e : Entry) :
    e ∈ (build split s).table i ↔
      (∃ be k p, s.backends[i]? = some be ∧ Spec.Fixed s.pprof be k p ∧
        e = Spec.entry k "" p) ∨
      (∃ k u host path, Spec.AtUrl s k u ∧ split u = some (host, path) ∧
        Spec.First s.backends host i ∧ e = Spec.entry k host path) := by
  unfold build
  rw [fold_table]
  refine or_congr ?_ ?_
  · dsimp only
    cases hb : s.backends[i]? with
    | none => simp
    | some be =>
      dsimp only
      rw [mem_own]
      constructor
      · rintro ⟨k, p, h1, h2⟩; exact ⟨be, k, p, rfl, h1, h2⟩
      · rintro ⟨be', k, p, h0, h1, h2⟩; cases h0; exact ⟨k, p, h1, h2⟩
  · constructor
    · rintro ⟨⟨e0, u⟩, hq, host, path, h1, h2, h3⟩
      obtain ⟨k, hk, rfl⟩ := (mem_requests s e0 u).1 hq
      exact ⟨k, u, host, path, hk, h1, (backendOf_iff _ _ _).1 h2, h3⟩
    · rintro ⟨k, u, host, path, hk, h1, h2, h3⟩
      exact ⟨(Spec.entry k "" [], u), (mem_requests s _ u).2 ⟨k, hk, rfl⟩, host, path, h1,
        (backendOf_iff _ _ _).2 h2, h3⟩

/-- Every endpoint of a table is as its kind demands. -/
theorem table_entry {split : String → Option (String × Str)} {s : Src} {i : Nat} {e : Entry}
    (h : e ∈ (build split s).table i) : e = Spec.entry e.kind e.host e.path := by
  rcases (table_exact split s i e).1 h with ⟨_, k, p, _, _, rfl⟩ | ⟨k, _, host, path, _, _, _, rfl⟩ <;>
    rfl

/-! ## Requests to endpoints -/

/-- `be` has the endpoints of backend `i`, sorted as `Reconfigure` does it. -/
def HasTable (split : String → Option (String × Str)) (s : Src) (code : Kind → Nat) (i : Nat)
    (be : Http.Be) : Prop :=
  (be.handlers.Perm (((build split s).table i).map (Entry.handler code))) ∧ Http.Sorted be.handlers

/-- C96. A local endpoint answers only what the configuration put there: it is public, or the SSO
policy was applied to the request and allowed it. -/
theorem served_configured (split : String → Option (String × Str)) (s : Src) (code : Kind → Nat)
    (i : Nat) (c : Http.Ctx) (be : Http.Be) (r : Http.Req) (h : Http.Handler)
    (ht : HasTable split s code i be) (hs : Http.serve c be r = .endpoint h) :
    ∃ e ∈ (build split s).table i, h = e.handler code ∧
      (e.host = "" ∨ e.host = c.hostFromReq r.host) ∧
      (r.path = e.path ∨ Spec.subPaths e.kind = true ∧ ∃ rest, r.path = e.path ++ '/' :: rest) ∧
      (Spec.public e.kind = true ∨
        ∃ a ck, Http.authenticate c be r = .ok a ∧ Http.enforce c be r a.claims = .ok ck) := by
  obtain ⟨h1, h2, -, h4⟩ := Http.endpoint_most_specific c be r h ht.2 hs
  obtain ⟨e, he, rfl⟩ := List.mem_map.1 (ht.1.mem_iff.1 h1)
  have hsub : e.matchPrefix = Spec.subPaths e.kind := by
    have := congrArg Entry.matchPrefix (table_entry he)
    exact this
  refine ⟨e, he, rfl, h2.1, ?_, ?_⟩
  · rw [← hsub]
    exact h2.2
  cases hp : Spec.public e.kind with
  | true => exact .inl rfl
  | false =>
    refine .inr (h4 ?_)
    have := table_entry he
    rw [this]
    exact hp

/-- C96, the part that holds: a request for the host and path of an endpoint reaches it, if the path
is a clean one, no other endpoint of that backend has the same host and path, and, for endpoints not
tied to a host, no endpoint tied to the request's host covers the path. The request must be
authenticated as usual and, unless the endpoint is public, allowed by the policy. Missing: endpoints
whose URL has no path or an unclean one (`endpoint_answers_violated`), clashing URLs, and requests
that arrive at another backend of the same host name because of their protocol. -/
theorem endpoint_answers_partial (split : String → Option (String × Str)) (s : Src)
    (code : Kind → Nat) (i : Nat) (c : Http.Ctx) (be : Http.Be) (r : Http.Req) (e : Entry)
    (a : Http.Authed) (ht : HasTable split s code i be) (he : e ∈ (build split s).table i)
    (hclean : pathClean e.path = e.path) (hpath : r.path = e.path)
    (hhost : (e.host = c.hostFromReq r.host ∧ e.host ≠ "") ∨
      e.host = "" ∧ ∀ e' ∈ (build split s).table i, e'.host ≠ "" →
        ¬ Http.Spec.Covers (e'.handler code) (c.hostFromReq r.host) r.path)
    (huniq : ∀ e' ∈ (build split s).table i, e'.host = e.host → e'.path = e.path → e' = e)
    (ha : Http.authenticate c be r = .ok a)
    (hpol : Spec.public e.kind = true ∨ ∃ ck, Http.enforce c be r a.claims = .ok ck) :
    Http.serve c be r = .endpoint (e.handler code) := by
  have hcov : Http.Spec.Covers (e.handler code) (c.hostFromReq r.host) r.path := by
    refine ⟨?_, .inl hpath⟩
    rcases hhost with h | h
    · exact .inr h.1
    · exact .inl h.1
  have hmem : e.handler code ∈ be.handlers := ht.1.mem_iff.2 (List.mem_map.2 ⟨e, he, rfl⟩)
  have hfind : be.handlers.find? (fun h => h.matches (c.hostFromReq r.host) r.path) =
      some (e.handler code) := by
    cases hf : be.handlers.find? (fun h => h.matches (c.hostFromReq r.host) r.path) with
    | none =>
      have := List.find?_eq_none.1 hf _ hmem
      exact absurd ((Http.matches_iff _ _ _).2 hcov) this
    | some h' =>
      obtain ⟨hm', pre, post, hsplit, hpre⟩ := List.find?_eq_some_iff_append.1 hf
      have hh' : h' ∈ be.handlers := List.mem_of_find?_eq_some hf
      obtain ⟨e', he', rfl⟩ := List.mem_map.1 (ht.1.mem_iff.1 hh')
      have hcov' := (Http.matches_iff _ _ _).1 hm'
      -- the chosen endpoint is not after `e` in the order
      have hnl : e' = e ∨ ¬ (e.handler code).less (e'.handler code) := by
        have hs := ht.2
        unfold Http.Sorted at hs
        rw [hsplit] at hmem hs
        rcases List.mem_append.1 hmem with h1 | h1
        · have := hpre _ h1
          rw [(Http.matches_iff _ _ _).2 hcov] at this
          cases this
        · rcases List.mem_cons.1 h1 with h1 | h1
          · left
            injection h1 with h2 h3
            exact huniq e' he' h2.symm h3.symm
          · right
            exact (List.pairwise_cons.1 (List.pairwise_append.1 hs).2.1).1 _ h1
      rcases hnl with rfl | hnl
      · rfl
      · -- hosts are equal
        have hheq : e'.host = e.host := by
          rcases hhost with ⟨h1, h2⟩ | ⟨h1, h2⟩
          · rcases hcov'.1 with h3 | h3
            · exfalso
              apply hnl
              have h3 : e'.host = "" := h3
              unfold Http.Handler.less
              show (if e.host = e'.host then _ else _) = true
              rw [h3, if_neg h2]
              show (if e.host.length ≠ String.length (e'.handler code).host then _ else _) = true
              have h4 : (e'.handler code).host = "" := h3
              have h5 : e.host.length ≠ 0 := fun h => h2 (String.length_eq_zero_iff.1 h)
              rw [h4, if_pos (by simpa using h5)]
              show decide (e.host.length > String.length "") = true
              simp only [String.length_empty, decide_eq_true_eq]
              omega
            · exact h3.trans h1.symm
          · rw [h1]
            refine Classical.not_not.1 fun hne => h2 e' he' hne hcov'
        -- and the chosen path is not shorter, so it is the same
        rcases hcov'.2 with h3 | ⟨-, rest, h3⟩
        · have h3 : r.path = e'.path := h3
          rw [huniq e' he' hheq (h3.symm.trans hpath)]
        · exfalso
          apply hnl
          have h3 : r.path = e'.path ++ '/' :: rest := h3
          unfold Http.Handler.less
          show (if e.host = e'.host then _ else _) = true
          rw [if_pos hheq.symm]
          show decide (e.path.length > e'.path.length) = true
          rw [← hpath, h3]
          simp only [List.length_append, List.length_cons, decide_eq_true_eq]
          omega
  unfold Http.serve
  rw [ha]
  dsimp only
  have hloc : Http.localEndpoints c be r a.claims = .error (.endpoint (e.handler code)) := by
    have hc : pathClean r.path = r.path := by rw [hpath]; exact hclean
    unfold Http.localEndpoints
    dsimp only
    rw [hc, hfind]
    dsimp only
    have hb : (e.handler code).bypass = Spec.public e.kind := by
      show e.bypass = _
      rw [table_entry he]
      rfl
    rw [hb]
    rcases hpol with h | ⟨ck, h⟩
    · rw [h]
      simp
    · rw [h]
      cases Spec.public e.kind <;> simp
  rw [hloc]

/-! Examples and counterexamples -/

namespace Ex

/-- A `hostAndPath` for three URLs. -/
def split : String → Option (String × Str)
  | "https://a/cb" => some ("a", "/cb".toList)
  | "https://a" => some ("a", [])
  | "https://b/pk" => some ("b", "/pk".toList)
  | _ => none

def src : Src :=
  { backends := [{ serverNames := ["a"], sso := some { provider := "google" } },
                 { serverNames := ["b"], sso := some { provider := "pk", passkey := true,
                                                       acl := some ["bob@x".toList] } }]
    callbacks := [("google", "https://a/cb"), ("pk", "https://b/pk")]
    pki := [{ name := "ca", endpoint := "https://a" }] }

/-- Numbers for the handler functions used below. -/
def code : Kind → Nat
  | .callback _ => 1
  | .ssoStatus => 2
  | .managePasskeys => 3
  | _ => 0

/-- Backend 0 with its endpoints in the order of the sort. -/
def be : Http.Be :=
  { reverse := false, serverNames := ["a"], sso := some { paths := [] }
    handlers :=
      [ { kind := .callback "google", host := "a", path := "/cb".toList, bypass := true,
          isCallback := true : Entry },
        { kind := .pkiManage "ca", host := "a", path := [] },
        { kind := .ssoIcon, path := "/.sso/favicon.ico".toList, bypass := true },
        { kind := .ssoStyle, path := "/.sso/style.css".toList, bypass := true },
        { kind := .ssoLogout, path := "/.sso/logout".toList, bypass := true },
        { kind := .ssoLogin, path := "/.sso/login".toList, bypass := true },
        { kind := .ssoStatus, path := "/.sso/".toList, bypass := true } ].map
          (Entry.handler code) }

theorem be_table : HasTable split src code 0 be := by
  constructor
  · exact (List.perm_iff_count.2 fun a => by
      have h : ∀ l l' : List Http.Handler, (∀ x ∈ l ++ l', l.count x = l'.count x) →
          l.count a = l'.count a := by
        intro l l' h
        by_cases ha : a ∈ l ++ l'
        · exact h a ha
        · rw [List.mem_append, not_or] at ha
          rw [List.count_eq_zero.2 ha.1, List.count_eq_zero.2 ha.2]
      exact h _ _ (by decide +kernel))
  · unfold Http.Sorted
    decide +kernel

/-- A request for the callback reaches it: the hypotheses of `endpoint_answers_partial` hold. -/
example : Http.serve {} be { host := "a", path := "/cb".toList } =
    .endpoint (Entry.handler code
      { kind := .callback "google", host := "a", path := "/cb".toList, bypass := true,
        isCallback := true }) :=
  endpoint_answers_partial split src code 0 {} be _ _ ⟨[], none⟩ be_table (by decide +kernel)
    (by decide +kernel) rfl (.inl ⟨rfl, by decide⟩) (by decide +kernel) rfl (.inl rfl)

end Ex

/-- C96 is violated for URLs without a path: the configuration asks for a certificate management
endpoint at `https://a`, which names no other endpoint, but no request path is ever answered by it,
whatever the request is. -/
theorem endpoint_answers_violated :
    ∃ split s code be e, HasTable split s code 0 be ∧
      Spec.AtUrl s e.kind "https://a" ∧ e ∈ (build split s).table 0 ∧
      (∀ e' ∈ (build split s).table 0, e'.host = e.host → e'.path = e.path → e' = e) ∧
      ∀ c r, Http.serve c be r ≠ .endpoint (e.handler code) := by
  refine ⟨Ex.split, Ex.src, Ex.code, Ex.be, { kind := .pkiManage "ca", host := "a", path := [] },
    Ex.be_table, ?_, by decide +kernel, by decide +kernel, ?_⟩
  · exact .pkiManage (s := Ex.src) (p := { name := "ca", endpoint := "https://a" })
      (by decide) (by decide)
  · intro c r h
    obtain ⟨-, h2, -, -⟩ := Http.endpoint_most_specific c Ex.be r _ Ex.be_table.2 h
    rcases h2.2 with h3 | ⟨h3, -⟩
    · have hclean : pathClean r.path = r.path := by
        unfold Http.serve at h
        split at h
        · rename_i ho; subst h
          rcases Http.authenticate_error' ho with h | h <;> cases h
        · split at h
          · rename_i ho; subst h
            rcases Http.localEndpoints_error ho with h | h | ⟨p, h⟩ | ⟨hd, -, h, -⟩
            · cases h
            · cases h
            · cases h
            · exact h
          · split at h
            · rename_i hr; cases hr
            · cases h
      have h4 : r.path = [] := h3
      rw [h4] at hclean
      exact absurd hclean (by decide +kernel)
    · cases h3

/-! ## C97 -/

/-- The backend that serves the callback of provider `n`. -/
def Spec.Home (split : String → Option (String × Str)) (s : Src) (n : String) (be : Be) : Prop :=
  ∃ u host path i, (n, u) ∈ s.callbacks ∧ split u = some (host, path) ∧
    Spec.First s.backends host i ∧ s.backends[i]? = some be

theorem fold_acl (split : String → Option (String × Str)) (bs : List Be) (n : String)
    (qs : List (Entry × String)) : ∀ (st : State),
    (qs.foldl (addLocalHandler split bs) st).acl n = st.acl n ∧
      (∀ q ∈ qs, ∀ host path i be sso, q.1.isCallback = true → split q.2 = some (host, path) →
        backendOf bs host = some i → bs[i]? = some be → be.sso = some sso →
        ¬ (sso.passkey = true ∧ sso.provider = n)) ∨
    ∃ q ∈ qs, ∃ host path i be sso, q.1.isCallback = true ∧ split q.2 = some (host, path) ∧
      backendOf bs host = some i ∧ bs[i]? = some be ∧ be.sso = some sso ∧ sso.passkey = true ∧
      sso.provider = n ∧ (qs.foldl (addLocalHandler split bs) st).acl n = some sso.acl := by
  induction qs with
  | nil => intro st; left; exact ⟨rfl, by intro q hq; cases hq⟩
  | cons q qs ih =>
    intro st
    rw [List.foldl_cons]
    rcases ih (addLocalHandler split bs st q) with ⟨h1, h2⟩ |
      ⟨q', hq, host, path, i, be, sso, h⟩
    · by_cases hit : ∃ host path i be sso, q.1.isCallback = true ∧
          split q.2 = some (host, path) ∧ backendOf bs host = some i ∧ bs[i]? = some be ∧
          be.sso = some sso ∧ sso.passkey = true ∧ sso.provider = n
      · obtain ⟨host, path, i, be, sso, k1, k2, k3, k4, k5, k6, k7⟩ := hit
        refine .inr ⟨q, List.mem_cons_self, host, path, i, be, sso, k1, k2, k3, k4, k5, k6, k7, ?_⟩
        rw [h1]
        unfold addLocalHandler
        rw [k2]
        dsimp only
        rw [k3]
        dsimp only
        rw [k4]
        obtain ⟨sn, bsso, ej, co⟩ := be
        dsimp only at k5
        subst k5
        dsimp only
        rw [if_pos (by rw [k1, k6]; rfl), if_pos k7.symm]
      · left
        constructor
        · rw [h1]
          unfold addLocalHandler
          cases hs : split q.2 with
          | none => rfl
          | some hp =>
            obtain ⟨host, path⟩ := hp
            dsimp only
            cases hb : backendOf bs host with
            | none => rfl
            | some i =>
              dsimp only
              cases hbe : bs[i]? with
              | none => rfl
              | some be =>
                obtain ⟨sn, bsso, ej, co⟩ := be
                cases bsso with
                | none => rfl
                | some sso =>
                  dsimp only
                  split
                  · rename_i hc
                    rw [Bool.and_eq_true] at hc
                    dsimp only
                    rw [if_neg]
                    intro hn
                    exact hit ⟨host, path, i, _, sso, hc.1, hs, hb, hbe, rfl, hc.2, hn.symm⟩
                  · rfl
        · intro q' hq' host path i be sso k1 k2 k3 k4 k5 ⟨k6, k7⟩
          rcases List.mem_cons.1 hq' with rfl | hq'
          · exact hit ⟨host, path, i, be, sso, k1, k2, k3, k4, k5, k6, k7⟩
          · exact h2 q' hq' host path i be sso k1 k2 k3 k4 k5 ⟨k6, k7⟩
    · exact .inr ⟨q', List.mem_cons_of_mem _ hq, host, path, i, be, sso, h⟩

theorem requests_callbacks (s : Src) (q : Entry × String) (hq : q ∈ requests s) :
    q.1.isCallback = true ↔ ∃ n, q.1.kind = .callback n ∧ (n, q.2) ∈ s.callbacks := by
  obtain ⟨e, u⟩ := q
  obtain ⟨k, hk, rfl⟩ := (mem_requests s e u).1 hq
  constructor
  · intro h
    cases hk with
    | callback hc => exact ⟨_, rfl, hc⟩
    | _ => cases h
  · rintro ⟨n, h1, -⟩
    have h1 : k = .callback n := h1
    subst h1
    rfl

/-- C97, the part that holds: when the backend that serves the endpoint of a passkey provider uses
this provider, and so does no backend with another ACL that serves a callback endpoint of any
provider, exactly the users on its ACL can register a passkey. -/
theorem passkey_acl_partial (split : String → Option (String × Str)) (s : Src) (n : String)
    (be : Be) (sso : SSO) (hh : Spec.Home split s n be) (hs : be.sso = some sso)
    (hp : sso.provider = n) (hk : sso.passkey = true)
    (hall : ∀ n' be' sso', Spec.Home split s n' be' → be'.sso = some sso' → sso'.provider = n →
      sso'.acl = sso.acl) (email : Str) :
    subjectIsAllowed ((build split s).acl n) email = true ↔
      (sso.acl = none ∨ ∃ l, sso.acl = some l ∧
        (email ∈ l ∨ '@' :: Http.domainOf email ∈ l)) := by
  have hacl : (build split s).acl n = some sso.acl := by
    unfold build
    rcases fold_acl split s.backends n (requests s)
      { table := fun j =>
          match s.backends[j]? with
          | none => []
          | some be => own s.pprof be
        acl := fun _ => none } with ⟨-, h2⟩ | ⟨q, hq, host, path, i, be', sso', k1, k2, k3, k4, k5, k6,
      k7, k8⟩
    · exfalso
      obtain ⟨u, host, path, i, g1, g2, g3, g4⟩ := hh
      refine h2 (Spec.entry (.callback n) "" [], u) ((mem_requests s _ u).2 ⟨_, .callback g1, rfl⟩)
        host path i be sso rfl g2 ((backendOf_iff _ _ _).2 g3) g4 hs ⟨hk, hp⟩
    · obtain ⟨n', -, hc⟩ := (requests_callbacks s q hq).1 k1
      refine Eq.trans k8 ?_
      rw [hall n' be' sso' ⟨q.2, host, path, i, hc, k2, (backendOf_iff _ _ _).1 k3, k4⟩ k5 k7]
  rw [hacl]
  unfold subjectIsAllowed
  cases sso.acl with
  | none => simp
  | some l => simp

/-- The hypotheses of `passkey_acl_partial` hold for the example above: only Bob may register. -/
example : subjectIsAllowed ((build Ex.split Ex.src).acl "pk") "bob@x".toList = true ∧
    subjectIsAllowed ((build Ex.split Ex.src).acl "pk") "eve@x".toList = false := by
  decide +kernel

/-- C97 is violated: (1) when the endpoint of the passkey provider is on a backend that uses another
provider, everybody may register although every backend that uses the passkey provider has an ACL;
(2) when the callback of another provider is on a backend that uses the passkey provider, the ACL
may be that backend's: Eve, who is not on the ACL of the backend with the endpoint, may register, or
may not, depending on the order in which the map of providers is visited. -/
theorem passkey_acl_violated :
    (∃ split s, (∀ be ∈ s.backends, ∀ sso, be.sso = some sso → sso.provider = "pk" →
        sso.acl = some ["bob@x".toList]) ∧
      subjectIsAllowed ((build split s).acl "pk") "eve@x".toList = true) ∧
    ∃ split s s' be sso, s.callbacks.Perm s'.callbacks ∧ s = { s' with callbacks := s.callbacks } ∧
      Spec.Home split s "pk" be ∧ be.sso = some sso ∧ sso.provider = "pk" ∧
      sso.acl = some ["bob@x".toList] ∧
      subjectIsAllowed ((build split s).acl "pk") "eve@x".toList = true ∧
      subjectIsAllowed ((build split s').acl "pk") "eve@x".toList = false := by
  constructor
  · refine ⟨Ex.split,
      { backends := [{ serverNames := ["a"], sso := some { provider := "pk", passkey := true,
                                                           acl := some ["bob@x".toList] } },
                     { serverNames := ["b"], sso := some { provider := "google" } }]
        callbacks := [("pk", "https://b/pk")] }, ?_, by decide +kernel⟩
    intro be hbe sso h1 h2
    simp only [List.mem_cons, List.not_mem_nil, or_false] at hbe
    rcases hbe with rfl | rfl
    · cases h1; rfl
    · cases h1; exact absurd h2 (by decide)
  · refine ⟨Ex.split,
      { backends := [{ serverNames := ["a"], sso := some { provider := "pk", passkey := true,
                                                           acl := some ["eve@x".toList] } },
                     { serverNames := ["b"], sso := some { provider := "pk", passkey := true,
                                                           acl := some ["bob@x".toList] } }]
        callbacks := [("pk", "https://b/pk"), ("google", "https://a/cb")] },
      { backends := [{ serverNames := ["a"], sso := some { provider := "pk", passkey := true,
                                                           acl := some ["eve@x".toList] } },
                     { serverNames := ["b"], sso := some { provider := "pk", passkey := true,
                                                           acl := some ["bob@x".toList] } }]
        callbacks := [("google", "https://a/cb"), ("pk", "https://b/pk")] },
      _, _, List.Perm.swap _ _ _, rfl, ⟨"https://b/pk", "b", "/pk".toList, 1, by simp, rfl,
        (backendOf_iff _ _ _).1 (by decide +kernel), rfl⟩, rfl, rfl, rfl, by decide +kernel,
      by decide +kernel⟩

end Verif.Endpoints
