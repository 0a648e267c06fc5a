import Verif.Model.Same
import Verif.Props.Rate
import Verif.Props.Dispatch
import Verif.Props.ConfigValid
/-
C155: what the documentation calls the same is the same.
-/

/-! ## Blocked addresses and unknown names -/

namespace Verif.Dispatch

/-- The same world, but no backend has the name. -/
def Spec.without (w : World) (n : String) : World :=
  { w with route := fun m ps => if m = n then .unexpectedSNI else w.route m ps }

/-- The server name that a client asks for. -/
def Spec.asked (w : World) (sni : String) : String := if sni = "" then w.defaultServerName else sni

/-- The address is in a denied network, or there is a list of allowed ones and it is in none of them, or it
is no IP address at all. -/
def Spec.Blocked (be : Be) (addr : Option IP) : Prop :=
  ∀ ip, addr = some ip →
    (∃ l, be.denyIPs = some l ∧ ∃ n ∈ l, Spec.member n ip) ∨
    (∃ l, be.allowIPs = some l ∧ ∀ n ∈ l, ¬ Spec.member n ip)

theorem blocked_check {be : Be} {addr : Option IP} (h : Spec.Blocked be addr) :
    checkIP be.denyIPs be.allowIPs addr = false := by
  cases hc : checkIP be.denyIPs be.allowIPs addr with
  | false => rfl
  | true =>
    obtain ⟨ip, rfl, hd, ha⟩ := (ip_rules _ _ _).mp hc
    rcases h ip rfl with ⟨l, hl, n, hn, hm⟩ | ⟨l, hl, hm⟩
    · exact absurd hm (hd l hl n hn)
    · obtain ⟨n, hn, hmn⟩ := ha l hl
      exact absurd hmn (hm n hn)

/-- C155 (1). A client on TCP whose address the backend blocks gets exactly what it would get if no
backend had the name, whatever the backend's mode and other settings; missing is what
`hidden_acme_violated` says. -/
theorem hidden_partial (w : World) (c : Conn) (sni : String) (protos : List String) (b : Nat)
    (hh : c.hello = some (sni, protos)) (hr : w.route (Spec.asked w sni) protos = .to b)
    (hb : Spec.Blocked (w.be b) c.addr)
    (hm : (w.be b).mode ∈ ["TCP", "TLS", "TLSPASSTHROUGH", "QUIC", "HTTP", "HTTPS", "LOCAL", "CONSOLE"])
    (ha : (w.be b).mode = "TLSPASSTHROUGH" ∨ protos ≠ ["acme-tls/1"] ∨ sni = "") :
    handleConnection w c = handleConnection (Spec.without w (Spec.asked w sni)) c := by
  unfold Spec.asked at hr ⊢
  unfold handleConnection
  simp only [hh, Spec.without]
  split
  · rfl
  · rw [hr]
    simp only [if_true]
    unfold dispatch
    dsimp only
    rw [blocked_check hb]
    simp only [Bool.false_eq_true, not_false_eq_true, if_true]
    split
    · rfl
    · rename_i hp
      rw [if_neg (by rintro ⟨h1, h2⟩; rcases ha with h | h | h <;> contradiction)]
      split
      · rfl
      · rename_i hq
        rw [if_pos]
        simp only [List.mem_cons, List.not_mem_nil, or_false] at hm
        grind

/-- C155 (2). A client that offers acme-tls/1 and nothing else is not held up by the address rules: it is
answered with a TLS handshake, and so learns that there is a backend of the name. -/
theorem hidden_acme_violated (w : World) (c : Conn) (sni : String) (b : Nat) (hs : sni ≠ "")
    (hh : c.hello = some (sni, ["acme-tls/1"])) (hr : w.route sni ["acme-tls/1"] = .to b)
    (ho : (c.numOpen : Int) < w.maxOpen) (hm : (w.be b).mode ≠ "TLSPASSTHROUGH") :
    handleConnection w c = [.acmeHandshake, .closed] ∧
    handleConnection (Spec.without w sni) c = [.alertUnrecognizedName, .closed] := by
  unfold handleConnection
  have h0 : ¬ (c.numOpen : Int) ≥ w.maxOpen := by omega
  constructor
  · rw [if_neg h0, hh]
    simp only [if_neg hs, hr]
    unfold dispatch
    rw [if_neg hm, if_pos ⟨rfl, hs⟩]
  · simp only [hh, Spec.without, if_neg hs, if_true]
    rw [if_neg h0]

/-- C155 (3). With QUIC it is never so: a client whose handshake succeeds sees the certificate of the
server, and is told afterwards that access is denied, where an unknown name fails the handshake. -/
theorem hidden_quic_violated (w : World) (declared : String → String → Option Nat) (c : QConn)
    (b0 b : Nat) (proto : String) (cert : Option Cert)
    (h0 : configForClient w declared c.client.sni c.client.protos = some b0)
    (h1 : handshake w (w.be b0) (w.be b0).nextProtosQUIC true c.client = some (proto, cert))
    (h2 : w.route c.client.sni [proto] = .to b) (ho : (c.numOpen : Int) < w.maxOpen)
    (hb : Spec.Blocked (w.be b) c.addr) :
    handleQUIC w declared c = [.closeAccessDenied, .closed] ∧
    handleQUIC (Spec.without w c.client.sni)
      (fun n p => if n = c.client.sni then none else declared n p) c = [.refused] := by
  constructor
  · unfold handleQUIC
    simp only [h0, h1, h2]
    rw [if_neg (by omega), blocked_check hb]
    rfl
  · have : ∀ l, configForClient (Spec.without w c.client.sni)
        (fun n p => if n = c.client.sni then none else declared n p) c.client.sni l = none := by
      intro l
      induction l with
      | nil => rfl
      | cons p ps ih => simp only [configForClient, if_true]; exact ih
    unfold handleQUIC
    simp only [this]

/-- A backend of mode HTTP for www.example.com that admits 10.0.0.0/8. -/
def exSameW : World where
  route n _ := if n = "www.example.com" then .to 0 else .unexpectedSNI
  be _ := { mode := "HTTP", protos := ["h3", "h2"], allowIPs := some [⟨[10, 0, 0, 0], 8⟩], http3 := true }
  isRevoked _ _ := false
  ocspOK _ := true
  defaultServerName := ""
  maxOpen := 10

theorem exSame_blocked : Spec.Blocked (exSameW.be 0) (some [192, 0, 2, 1]) := by
  intro ip e
  cases e
  refine Or.inr ⟨_, rfl, ?_⟩
  intro n hn
  simp only [List.mem_cons, List.not_mem_nil, or_false] at hn
  subst hn
  rw [← contains_iff]
  decide +kernel

example : handleConnection exSameW ⟨0, some ("www.example.com", ["h2"]), some [192, 0, 2, 1],
      ⟨"www.example.com", ["h2"], none, true, true⟩, true, true, true⟩ = [.alertUnrecognizedName, .closed] := by
  rw [hidden_partial exSameW _ "www.example.com" ["h2"] 0 rfl rfl exSame_blocked (by decide)
    (Or.inr (Or.inl (by decide)))]
  decide +kernel

/-- The same client is served if its address is admitted. -/
example : handleConnection exSameW ⟨0, some ("www.example.com", ["h2"]), some [10, 0, 2, 1],
      ⟨"www.example.com", ["h2"], none, true, true⟩, true, true, true⟩ =
    [.ipAllowed 0, .authorized 0 none, .http 0] := by decide +kernel

example := hidden_acme_violated exSameW ⟨0, some ("www.example.com", ["acme-tls/1"]), some [192, 0, 2, 1],
  ⟨"www.example.com", ["acme-tls/1"], none, true, true⟩, true, true, true⟩ "www.example.com" 0 (by decide)
  rfl rfl (by decide) (by decide)

example := hidden_quic_violated exSameW (fun n p => if n = "www.example.com" ∧ p = "h3" then some 0 else none)
  ⟨⟨"www.example.com", ["h3"], none, true, true⟩, 0, some [192, 0, 2, 1], true⟩ 0 0 "h3" none
  (by decide +kernel) (by decide +kernel) rfl (by decide) exSame_blocked

end Verif.Dispatch

/-! ## Mode LOCAL -/

namespace Verif.Http

/-- The backend in mode LOCAL, and the same one in mode HTTP or HTTPS, without addresses. -/
def Spec.inLocal (be : Be) : Be := { be with reverse := false, addresses := [], overrides := [] }
def Spec.inHTTP (be : Be) : Be := { be with reverse := true, addresses := [], overrides := [] }

/-- The host that a request is for. -/
def Spec.rootFile (c : Ctx) (r : Req) : String := c.hostname (if r.host = "" then c.serverName else r.host)

theorem same_authenticate (c : Ctx) (be : Be) (r : Req) :
    authenticate c (Spec.inLocal be) r = authenticate c (Spec.inHTTP be) r := rfl

theorem same_endpoints (c : Ctx) (be : Be) (r : Req) (cl : Option Claims) :
    localEndpoints c (Spec.inLocal be) r cl = localEndpoints c (Spec.inHTTP be) r cl := rfl

/-- C155 (4). Mode LOCAL answers requests for the backend's own server names like modes HTTP and HTTPS
without addresses; missing is what `local_violated` says. -/
theorem local_partial (c : Ctx) (be : Be) (r : Req) (hh : Spec.rootFile c r ∈ be.serverNames)
    (hw : c.waitOK = true) : serve c (Spec.inLocal be) r = serve c (Spec.inHTTP be) r := by
  unfold serve
  rw [same_authenticate]
  cases authenticate c (Spec.inHTTP be) r with
  | error o => rfl
  | ok a =>
    dsimp only
    rw [same_endpoints]
    cases localEndpoints c (Spec.inHTTP be) r a.claims with
    | error o => rfl
    | ok cookies =>
      dsimp only
      rw [if_neg (by simp [Spec.inLocal]), if_pos (by rfl)]
      unfold reverseProxy
      unfold Spec.rootFile at hh
      rw [if_neg (by simpa [Spec.inHTTP] using hh), if_neg (by simp [hw])]
      rfl

theorem auth_static (c : Ctx) (be : Be) (r : Req) (x : StaticRes) (o : List Path.Str) :
    authenticate c be r ≠ .error (.static x o) := by
  intro h
  unfold authenticate at h
  dsimp only at h
  split at h
  · cases h
  · split at h
    · cases h
    · cases h
    · cases h
    · split at h
      · cases h
      · split at h <;> cases h

theorem enforce_static (c : Ctx) (be : Be) (r : Req) (cl : Option Claims) (x : StaticRes)
    (o : List Path.Str) : enforce c be r cl ≠ .error (.static x o) := by
  intro h
  unfold enforce at h
  dsimp only at h
  repeat' first | (cases h; done) | split at h

theorem local_static (c : Ctx) (be : Be) (r : Req) (cl : Option Claims) (x : StaticRes)
    (o : List Path.Str) : localEndpoints c be r cl ≠ .error (.static x o) := by
  intro h
  unfold localEndpoints at h
  dsimp only at h
  split at h
  · split at h
    · rename_i hd e he
      cases h
      split at he
      · cases he
      · exact enforce_static c be r cl x o he
    · split at h <;> cases h
  · split at h
    · rename_i e he
      cases h
      exact enforce_static c be r cl x o he
    · split at h <;> cases h

/-- C155 (5). For every other host mode LOCAL serves its files, where modes HTTP and HTTPS refuse the
request as misdirected. -/
theorem local_violated (c : Ctx) (be : Be) (r : Req) (x : StaticRes) (o : List Path.Str)
    (hh : Spec.rootFile c r ∉ be.serverNames) (hs : serve c (Spec.inLocal be) r = .static x o) :
    serve c (Spec.inHTTP be) r = .misdirected := by
  unfold serve at hs ⊢
  rw [same_authenticate] at hs
  cases ha : authenticate c (Spec.inHTTP be) r with
  | error e =>
    rw [ha] at hs
    dsimp only at hs
    subst hs
    exact absurd ha (auth_static c _ r x o)
  | ok a =>
    rw [ha] at hs
    dsimp only at hs ⊢
    rw [same_endpoints] at hs
    cases hl : localEndpoints c (Spec.inHTTP be) r a.claims with
    | error e =>
      rw [hl] at hs
      dsimp only at hs
      subst hs
      exact absurd hl (local_static c _ r _ x o)
    | ok cookies =>
      dsimp only
      rw [if_pos (by rfl)]
      unfold reverseProxy
      unfold Spec.rootFile at hh
      rw [if_pos (by simpa [Spec.inHTTP] using hh)]

def exSameBe : Be := { serverNames := ["www.example.com"], docRoot := "/srv".toList }
def exSameC : Ctx := { serverName := "www.example.com", stat := fun p =>
  if p = "/srv/a".toList then some .regular else none }

example : serve exSameC (Spec.inHTTP exSameBe) { host := "www.example.com", path := "/a".toList } =
    serve exSameC (Spec.inLocal exSameBe) { host := "www.example.com", path := "/a".toList } :=
  (local_partial exSameC exSameBe _ (by decide) rfl).symm

example : serve exSameC (Spec.inHTTP exSameBe) { host := "other.example.com", path := "/a".toList } =
    .misdirected :=
  local_violated exSameC exSameBe _ (serveStatic exSameC "/srv".toList [] "GET" "/a".toList).1
    (serveStatic exSameC "/srv".toList [] "GET" "/a".toList).2 (by decide) rfl

end Verif.Http

namespace Verif.Config

/-- The configuration with another mode in the place of LOCAL. -/
def Spec.instead (env : Env) (m : String) (raw : Config) : Config :=
  { raw with backends := raw.backends.map fun be => if env.toUpper be.mode = "LOCAL" then { be with mode := m } else be }

/-- The same in normal form. -/
def Spec.renamed (m : String) (be : Backend) : Backend := if be.mode = "LOCAL" then { be with mode := m } else be

theorem norm_local (env : Env) (be : Backend) (quic : Bool) :
    (normBackend env quic be).mode = "LOCAL" ↔ env.toUpper be.mode = "LOCAL" := by
  unfold normBackend normMode
  dsimp only
  split
  · rename_i h
    constructor
    · intro e; exact absurd e (by decide)
    · intro e; rw [e] at h; exact absurd h (by decide)
  · exact Iff.rfl

theorem norm_instead (env : Env) (m : String) (hm : m = "HTTP" ∨ m = "HTTPS") (hu : env.toUpper m = m)
    (quic : Bool) (be : Backend) (ho : env.toUpper be.mode = "LOCAL" → be.pathOverrides = []) :
    normBackend env quic (if env.toUpper be.mode = "LOCAL" then { be with mode := m } else be) =
      Spec.renamed m (normBackend env quic be) := by
  unfold Spec.renamed
  by_cases h : env.toUpper be.mode = "LOCAL"
  · rw [if_pos h, if_pos ((norm_local env be quic).mpr h)]
    have e1 : normMode env m = m := by
      unfold normMode
      dsimp only
      rw [hu, if_neg]
      rcases hm with rfl | rfl <;> decide
    have e2 : normMode env be.mode = "LOCAL" := by
      unfold normMode
      dsimp only
      rw [h, if_neg (by decide)]
    unfold normBackend
    dsimp only
    rw [e1, e2, ho h]
    rcases hm with rfl | rfl <;> simp
  · rw [if_neg h, if_neg (fun e => h ((norm_local env be quic).mp e))]

theorem renamed_names (m : String) (bs : List Backend) :
    Spec.pairs (bs.map (Spec.renamed m)) = Spec.pairs bs ∧ Spec.named (bs.map (Spec.renamed m)) = Spec.named bs := by
  have h : ∀ be, (Spec.renamed m be).serverNames = be.serverNames ∧
      (Spec.renamed m be).alpnProtos = be.alpnProtos := by
    intro be; unfold Spec.renamed; split <;> exact ⟨rfl, rfl⟩
  unfold Spec.pairs Spec.named
  constructor <;> rw [List.flatMap_map] <;> congr 1 <;> funext be <;> rw [(h be).1, (h be).2]

/-- C155 (8). A configuration that is accepted with backends in mode LOCAL is accepted with HTTP or HTTPS in
its place, and nothing but the mode is different then; missing are the pages for managing certificates
(`local_check_violated`). -/
theorem local_check_partial (env : Env) (m : String) (hm : m = "HTTP" ∨ m = "HTTPS") (hu : env.toUpper m = m)
    (raw cfg : Config) (h : check env raw = .ok cfg)
    (hp : ∀ p ∈ raw.pki, ∀ host be, env.hostOf p.endpoint = some host → Spec.First cfg.backends host be →
      be.mode ≠ "LOCAL") :
    check env (Spec.instead env m raw) =
      .ok { cfg with backends := cfg.backends.map fun be =>
        if be.mode = "LOCAL" then { be with mode := m } else be } := by
  obtain ⟨rfl, hv⟩ := (check_iff _ _ _).mp h
  have hback : ∀ be ∈ raw.backends, env.toUpper be.mode = "LOCAL" → be.pathOverrides = [] := by
    intro be hbe hl
    have hok := hv.backends _ (List.mem_map.mpr ⟨be, hbe, rfl⟩)
    by_cases hpo : be.pathOverrides = []
    · exact hpo
    · have h1 := hok.overridesMode (by simpa [normBackend] using hpo)
      rw [(norm_local env be _).mpr hl] at h1
      exact absurd h1 (by decide)
  have hn : normalise env (Spec.instead env m raw) =
      { normalise env raw with backends := (normalise env raw).backends.map (Spec.renamed m) } := by
    unfold normalise Spec.instead
    simp only [List.map_map]
    congr 1
    apply List.map_congr_left
    intro be hbe
    exact norm_instead env m hm hu _ be (hback be hbe)
  refine (check_iff _ _ _).mpr ⟨hn.symm ▸ rfl, ?_⟩
  have hren : ∀ be, (Spec.renamed m be).serverNames = be.serverNames := by
    intro be; unfold Spec.renamed; split <;> rfl
  refine ⟨hv.cacheDir, hv.maxOpen, hv.quic, hv.acceptFrom, hv.providers, hv.oidc, hv.saml, hv.passkeys,
    ?_, ?_, hv.pkiNames, ?_, hv.sshNames, ?_, hv.bwLimits, ?_, hv.mkdir⟩
  · show (Spec.pairs ((normalise env raw).backends.map (Spec.renamed m))).Nodup
    rw [(renamed_names m _).1]; exact hv.pairs
  · show ∀ pre n post, Spec.named ((normalise env raw).backends.map (Spec.renamed m)) = _ → _
    rw [(renamed_names m _).2]; exact hv.noALPN
  · intro p hpm
    refine ⟨(hv.pki p hpm).1, fun he => ?_⟩
    obtain ⟨host, be, h1, h2, h3⟩ := (hv.pki p hpm).2 he
    have h4 := hp p hpm host be h1 h2
    refine ⟨host, be, h1, ?_, h3⟩
    obtain ⟨pre, post, e, h5, h6⟩ := h2
    refine ⟨pre.map (Spec.renamed m), post.map (Spec.renamed m), ?_, h5, ?_⟩
    · show (normalise env raw).backends.map (Spec.renamed m) = _
      rw [e, List.map_append, List.map_cons]
      congr 2
      unfold Spec.renamed
      rw [if_neg h4]
    · intro b hb
      obtain ⟨b', hb', rfl⟩ := List.mem_map.mp hb
      rw [hren]; exact h6 b' hb'
  · intro p hpm
    refine ⟨(hv.ssh p hpm).1, fun he => ?_⟩
    obtain ⟨host, h1, be, h2, h3⟩ := (hv.ssh p hpm).2 he
    exact ⟨host, h1, _, List.mem_map.mpr ⟨be, h2, rfl⟩, by
      show host ∈ (Spec.renamed m be).serverNames
      rw [hren]; exact h3⟩
  · intro be hbe
    obtain ⟨b, hb, rfl⟩ := List.mem_map.mp hbe
    have hok := hv.backends b hb
    show Spec.BackendOK env _ (Spec.renamed m b)
    unfold Spec.renamed
    split
    · rename_i hl
      have hpo : b.pathOverrides = [] := by
        by_cases hpo : b.pathOverrides = []
        · exact hpo
        · have h1 := hok.overridesMode hpo
          rw [hl] at h1
          exact absurd h1 (by decide)
      exact {
        mode := by
          show m ∈ _
          rcases hm with rfl | rfl <;> decide
        passthrough := fun e => by
          have e : m = "TLSPASSTHROUGH" := e
          rcases hm with rfl | rfl <;> exact absurd e (by decide)
        proto := fun _ => hm
        serverNames := hok.serverNames
        addresses := fun e => by
          have e : m ∈ ["TCP", "TLS", "TLSPASSTHROUGH", "QUIC"] := e
          rcases hm with rfl | rfl <;> exact absurd e (by decide)
        noAddresses := fun e => by
          have e : m = "CONSOLE" ∨ m = "LOCAL" := e
          rcases hm with rfl | rfl <;> exact absurd e (by decide)
        documentRoot := hok.documentRoot
        bwLimit := hok.bwLimit
        clientAuth := hok.clientAuth
        sso := hok.sso
        forwardRootCAs := hok.forwardRootCAs
        allowIPs := hok.allowIPs
        denyIPs := hok.denyIPs
        version := hok.version
        overridesMode := fun e => absurd hpo e
        overrides := fun po h => by
          have : po ∈ b.pathOverrides := h
          rw [hpo] at this; cases this }
    · exact { hok with overrides := fun po h => { hok.overrides po h with } }

/-- C155 (9). With the page of a certificate authority on a backend in mode LOCAL, the same configuration
with HTTP or HTTPS instead is refused. -/
theorem local_check_violated (env : Env) (m : String) (hm : m = "HTTP" ∨ m = "HTTPS") (hu : env.toUpper m = m)
    (raw cfg : Config) (h : check env raw = .ok cfg) (p : PKI) (hp : p ∈ raw.pki) (he : p.endpoint ≠ "")
    (host : String) (be : Backend) (hh : env.hostOf p.endpoint = some host)
    (hf : Spec.First cfg.backends host be) (hl : be.mode = "LOCAL") :
    ∃ e, check env (Spec.instead env m raw) = .error e := by
  cases hc : check env (Spec.instead env m raw) with
  | error e => exact ⟨e, rfl⟩
  | ok cfg' =>
    exfalso
    obtain ⟨rfl, hv⟩ := (check_iff _ _ _).mp h
    obtain ⟨rfl, hv'⟩ := (check_iff _ _ _).mp hc
    obtain ⟨host', b, h1, ⟨pre, post, e, h2, h3⟩, h4⟩ := (hv'.pki p hp).2 he
    rw [hh] at h1
    cases h1
    have hback : ∀ be ∈ raw.backends, env.toUpper be.mode = "LOCAL" → be.pathOverrides = [] := by
      intro be hbe hl
      have hok := hv.backends _ (List.mem_map.mpr ⟨be, hbe, rfl⟩)
      by_cases hpo : be.pathOverrides = []
      · exact hpo
      · have h1 := hok.overridesMode (by simpa [normBackend] using hpo)
        rw [(norm_local env be _).mpr hl] at h1
        exact absurd h1 (by decide)
    have hn : (normalise env (Spec.instead env m raw)).backends =
        (normalise env raw).backends.map (Spec.renamed m) := by
      unfold normalise Spec.instead
      simp only [List.map_map]
      apply List.map_congr_left
      intro be hbe
      exact norm_instead env m hm hu _ be (hback be hbe)
    have hren : ∀ be, (Spec.renamed m be).serverNames = be.serverNames := by
      intro be; unfold Spec.renamed; split <;> rfl
    rw [hn] at e
    -- the first backend with the name is the same one
    have hfind : ∀ l : List Backend, (l.map (Spec.renamed m)).find? (fun b => host ∈ b.serverNames) =
        (l.find? fun b => host ∈ b.serverNames).map (Spec.renamed m) := by
      intro l
      rw [List.find?_map]
      congr 2
      funext x
      simp only [Function.comp, hren]
    have f1 := (firstWithName_iff (normalise env raw).backends host be).mpr hf
    have f2 := (firstWithName_iff _ host b).mpr ⟨pre, post, e, h2, h3⟩
    unfold firstWithName at f1 f2
    rw [hfind, f1] at f2
    cases f2
    unfold Spec.renamed at h4
    rw [if_pos hl] at h4
    have h4 : m = "LOCAL" ∨ m = "CONSOLE" := h4
    rcases hm with rfl | rfl <;> rcases h4 with h4 | h4 <;> exact absurd h4 (by decide)

def exSameEnv : Env where
  idna := id
  toUpper := id
  toLower := id
  urlOK _ := true
  hostOf _ := some "pki.example.com"
  cidrOK _ := true
  regexOK _ := true
  certsOK _ := true
  openFileLimit := some 1024
  userCacheDir := some "/root/.cache"
  mkdirOK := true
  quicIsEnabled := true

def exSameRaw (pki : List PKI) : Config :=
  { pki := pki, backends := [{ serverNames := ["pki.example.com"], mode := "LOCAL" }] }

/-- Decides whether a configuration is accepted. -/
def exAccepted (r : Except String Config) : Bool := match r with | .ok _ => true | .error _ => false

example : exAccepted (check exSameEnv (exSameRaw [])) = true ∧
    exAccepted (check exSameEnv (Spec.instead exSameEnv "HTTP" (exSameRaw []))) = true ∧
    exAccepted (check exSameEnv (exSameRaw [{ name := "ca", endpoint := "https://pki.example.com/" }])) = true ∧
    exAccepted (check exSameEnv (Spec.instead exSameEnv "HTTP"
      (exSameRaw [{ name := "ca", endpoint := "https://pki.example.com/" }]))) = false := by decide +kernel

end Verif.Config

/-! ## Streams -/

namespace Verif.Same

open Verif.Rate (Spec.during)

/-- The time of an operation. -/
def Spec.time : Op → Nat
  | .tls t => t
  | .quic _ t => t
  | .stream _ t => t

/-- Operations happen one after the other. -/
def Spec.Ordered (ops : List Op) : Prop := (ops.map Spec.time).Pairwise (· ≤ ·)

/-- No streams of QUIC connections. -/
def Spec.NoStreams (ops : List Op) : Prop := ∀ o ∈ ops, ∀ id t, o ≠ .stream id t

theorem no_streams_rate (ops : List Op) : ∀ (s : State) (r : Rate.State), Spec.NoStreams ops →
    s.lim = r.lim → s.dialed.Sublist r.admitted →
    (run s ops).lim = (Rate.run r (ops.map fun o => .relay (Spec.time o))).lim ∧
    (run s ops).dialed.Sublist (Rate.run r (ops.map fun o => .relay (Spec.time o))).admitted := by
  induction ops with
  | nil => intro s r _ h1 h2; exact ⟨h1, h2⟩
  | cons o os ih =>
    intro s r hn h1 h2
    have hn' : Spec.NoStreams os := fun o' ho' => hn o' (List.mem_cons_of_mem _ ho')
    show (run (step s o) os).lim = (Rate.run (Rate.step r (.relay (Spec.time o))) _).lim ∧
      (run (step s o) os).dialed.Sublist (Rate.run (Rate.step r (.relay (Spec.time o))) _).admitted
    apply ih _ _ hn'
    · cases o with
      | tls t => simp [step, tlsConn, Rate.step, Rate.waitForward, Spec.time, h1]
      | quic id t => simp [step, quicConn, Rate.step, Rate.waitForward, Spec.time, h1]
      | stream id t => exact absurd rfl (hn _ List.mem_cons_self id t)
    · cases o with
      | tls t =>
        simp only [step, tlsConn, Rate.step, Rate.waitForward, Spec.time, h1]
        exact h2.cons_cons _
      | quic id t =>
        simp only [step, quicConn, Rate.step, Rate.waitForward, Spec.time]
        exact h2.cons _
      | stream id t => exact absurd rfl (hn _ List.mem_cons_self id t)

/-- C155 (6). As long as clients use TLS, the servers are dialed at no more than the configured rate;
missing are the streams of QUIC connections. -/
theorem dials_partial (configured : Nat) (ops : List Op) (ho : Spec.Ordered ops) (hn : Spec.NoStreams ops)
    (x w : Nat) :
    Spec.during (run (init configured) ops).dialed x (x + w) * 1000000000 ≤
      (if configured = 0 then 5 else configured) * (1000000000 + w) := by
  have h := (no_streams_rate ops (init configured) (Rate.init configured) hn rfl (List.Sublist.refl _)).2
  have hr := Rate.rate_admitted configured (ops.map fun o => .relay (Spec.time o)) (by
    unfold Rate.Spec.Ordered
    rw [List.map_map]
    exact ho) x w
  have hle : Spec.during (run (init configured) ops).dialed x (x + w) ≤
      Spec.during (Rate.run (Rate.init configured) (ops.map fun o => .relay (Spec.time o))).admitted x (x + w) :=
    (h.filter _).length_le
  exact Nat.le_trans (Nat.mul_le_mul_right _ hle) hr

theorem run_streams (n t since : Nat) (h : since ≤ t) : ∀ s : State, s.conns.lookup 0 = some since →
    (run s (List.replicate n (.stream 0 t))).dialed = List.replicate n t ++ s.dialed := by
  induction n with
  | zero => intro s _; rfl
  | succ n ih =>
    intro s hs
    show (run (step s (.stream 0 t)) (List.replicate n (.stream 0 t))).dialed = _
    have e : step s (.stream 0 t) = { s with dialed := t :: s.dialed } := by
      simp only [step, hs]
      unfold stream
      rw [if_neg (by omega)]
    rw [e, ih { s with dialed := t :: s.dialed } hs, List.replicate_succ']
    simp

/-- C155 (7). The streams of one QUIC connection are not limited: as many as the client likes are dialed
at the same moment, whatever the limit, where so many TLS connections would have to wait. -/
theorem dials_violated (configured n : Nat) : ∃ ops t, Spec.Ordered ops ∧
    Spec.during (run (init configured) ops).dialed t t = n ∧
    Spec.during (run (init configured) (List.replicate n (.tls t))).dialed t t ≤
      (if configured = 0 then 5 else configured) := by
  generalize hsince : (Rate.reserve (Rate.newLimiter configured) 0).2 = since
  refine ⟨.quic 0 0 :: List.replicate n (.stream 0 since), since, ?_, ?_, ?_⟩
  · unfold Spec.Ordered
    rw [List.map_cons, List.map_replicate, List.pairwise_cons]
    refine ⟨fun a ha => Nat.zero_le _, ?_⟩
    rw [List.pairwise_replicate]
    exact Or.inr (Nat.le_refl _)
  · show Spec.during (run (step (init configured) (.quic 0 0)) _).dialed since since = n
    have e : (step (init configured) (.quic 0 0)).conns = [(0, since)] := by
      rw [← hsince]; rfl
    have e2 : (step (init configured) (.quic 0 0)).dialed = [] := rfl
    rw [run_streams n since since (Nat.le_refl _) _ (by rw [e]; rfl), e2]
    unfold Rate.Spec.during
    rw [List.append_nil, List.filter_replicate]
    simp
  · have := dials_partial configured (List.replicate n (.tls since)) (by
      unfold Spec.Ordered
      rw [List.map_replicate, List.pairwise_replicate]
      exact Or.inr (Nat.le_refl _)) (by
      intro o ho id t e
      rw [List.eq_of_mem_replicate ho] at e
      cases e) since 0
    rw [Nat.add_zero, Nat.add_zero] at this
    exact Nat.le_of_mul_le_mul_right this (Nat.succ_pos _)

example : (run (init 2) [.quic 7 0, .stream 7 1, .stream 7 1, .stream 7 1, .tls 1, .tls 1, .tls 1]).dialed =
    [1000000000, 500000000, 1, 1, 1, 1] := by decide +kernel

end Verif.Same
