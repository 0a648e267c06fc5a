import Verif.Model.EndToEnd
import Verif.Props.Front
import Verif.Props.Sso
import Verif.Props.Handlers
import Verif.Props.Token
/-
C126: every check on the way of a request, from the first byte of the connection to the answer.
-/
namespace Verif.EndToEnd

open Verif.Dispatch (World Event QEvent QConn IP)
open Verif.Front (Arrival Pre)
open Verif.Hello (Bytes)
open Verif.Hello.Spec (GHello OneName vec16)

/-! ## Specification -/

/-- The proxy runs an accepted configuration, and every token it has signed is in the history `h`. -/
structure Spec.Runs (p : Proxy) (env : Config.Env) (raw cfg : Config.Config) (down : Nat → Bool)
    (tw : Token.World) (h : List Token.Issue) : Prop where
  accepted : Config.check env raw = .ok cfg
  noEmpty : ∀ be ∈ cfg.backends, "" ∉ be.alpnProtos.getD []
  world : Dispatch.Spec.Runs p.w cfg down
  names : ∀ i be, cfg.backends[i]? = some be → (p.http i).serverNames = be.serverNames
  reverse : ∀ i be, cfg.backends[i]? = some be → ((p.http i).reverse = true ↔ be.mode = "HTTP" ∨ be.mode = "HTTPS")
  history : Token.Valid tw h
  issued : p.issued = Token.issued tw h
  hash : p.hash = tw.hash

/-- Somebody logged in as `email` with the identity provider of `cm` at time `t0` on `host0`, less than 20 hours ago,
and the request carries the login cookie they got then, or as bearer token an ID token made from it for this host.
A bearer token may stem from another provider with the same issuer (finding C41). -/
inductive Spec.LoggedIn (tw : Token.World) (h : List Token.Issue) (cm : Token.Cm) (q : Ask) (email : Token.Str)
    (t0 : Nat) (host0 : Token.Str) : Prop
  | cookie {user sid extra tok} : q.tokens.auth = some tok → Token.Issue.login cm t0 user email sid host0 extra ∈ h →
      Token.authToken tw.hash cm t0 user email sid host0 extra = some tok → q.now < t0 + 72000 →
      Spec.LoggedIn tw h cm q email t0 host0
  | bearer {cm' user sid extra auth host' t tok} : q.tokens.bearer = some tok →
      cm'.issuer = cm.issuer → Token.Issue.login cm' t0 user email sid host0 extra ∈ h →
      Token.authToken tw.hash cm' t0 user email sid host0 extra = some auth →
      Token.Issue.id cm' host' t auth ∈ h → tok = Token.idToken tw.uni host' t auth →
      Token.Spec.SameHost tw host' (q.ctx.hostFromReq q.req.host).toList → q.now < t0 + 72000 →
      Spec.LoggedIn tw h cm q email t0 host0

/-- The single sign-on policy is satisfied: if it covers the path, a login that the ACL allows; recent enough and on
this host, if that is demanded. -/
def Spec.Identified (tw : Token.World) (h : List Token.Issue) (cm : Token.Cm) (sso : Http.SSO) (q : Ask) : Prop :=
  Http.Spec.Covered sso q.req.path → ∃ email t0 host0, Spec.LoggedIn tw h cm q email t0 host0 ∧ email ≠ [] ∧
    ('@' ∈ email → Http.Spec.Allowed sso.acl email) ∧
    (sso.forceReAuth = 0 ∨
      (tw.hash host0 = tw.hash q.req.host.toList ∧ (q.now : Int) - t0 ≤ sso.forceReAuth ∧
        ∃ tok, q.tokens.auth = some tok ∧ Token.get tok "iat" = some (.num t0)))

/-- The client certificate satisfies the backend's settings. -/
def Spec.Certified (be : Config.Backend) (cl : Dispatch.Client) : Prop :=
  ∀ ca, be.clientAuth = some ca → ∃ crt, cl.cert = some crt ∧ cl.chainOK = true ∧
    (ca.acl = none ∨ ∃ l, ca.acl = some l ∧ ∃ e ∈ l, Dispatch.Spec.Names crt e)

/-- The request is for a host of the backend, if it goes to a server or a file of a reverse proxy backend. -/
def Spec.RightHost (be : Config.Backend) (serverName : String) (q : Ask) (o : Http.Out) : Prop :=
  (be.mode = "HTTP" ∨ be.mode = "HTTPS") →
    ((∃ p hs ck ov k, o = .forward p hs ck ov k) ∨ ∃ s fs, o = .static s fs) →
    q.ctx.hostname (if q.req.host = "" then serverName else q.req.host) ∈ be.serverNames

/-! ## Tokens -/

theorem creds_identity {issued : List Token.Claims} {cm : Token.Cm} {host : Token.Str} {now : Nat} {t : Tokens}
    {r : Http.Req} (hc : r.creds = creds issued cm host now t) {cl : Http.Claims}
    (h : Http.Spec.identity r = some cl) :
    (∃ tok c, t.bearer = some tok ∧ Token.validateBearer issued cm host now tok = some c ∧ cl = claimsOf c) ∨
    (∃ tok c, t.auth = some tok ∧ Token.validateAuthToken issued cm now tok = some c ∧ cl = claimsOf c) := by
  unfold Http.Spec.identity at h
  rw [Option.filter_eq_some_iff, hc] at h
  have h1 := h.1
  unfold creds at h1
  dsimp only at h1
  rw [Option.or_eq_some_iff] at h1
  rcases h1 with h1 | ⟨-, h1⟩
  · obtain ⟨c, hc, rfl⟩ := Option.map_eq_some_iff.mp h1
    obtain ⟨tok, ht, hv⟩ := Option.bind_eq_some_iff.mp hc
    exact .inl ⟨tok, c, ht, hv, rfl⟩
  · obtain ⟨c, hc, rfl⟩ := Option.map_eq_some_iff.mp h1
    obtain ⟨tok, ht, hv⟩ := Option.bind_eq_some_iff.mp hc
    exact .inr ⟨tok, c, ht, hv, rfl⟩

theorem noRewrite_sub {h : List Token.Issue} (hr : Token.NoRewrite ["iss", "proxyauth"] h) :
    Token.NoRewrite ["proxyauth"] h := fun iss rules now q user hm r hrm hx =>
  hr iss rules now q user hm r hrm (by
    simp only [List.mem_cons, List.not_mem_nil, or_false] at hx ⊢; exact Or.inr hx)

theorem identified {p : Proxy} {tw : Token.World} {h : List Token.Issue} (hv : Token.Valid tw h)
    (hi : p.issued = Token.issued tw h) (hh : p.hash = tw.hash)
    (hr : Token.NoRewrite ["iss", "proxyauth"] h) {b : Nat} (ho : Token.OtherIssuers (p.cm b) h)
    {n : String} {q : Ask} {sso : Http.SSO} (hs : (p.http b).sso = some sso)
    (hp : Http.Spec.Protected (answer p b n q)) : Spec.Identified tw h (p.cm b) sso q := by
  intro hcov
  obtain ⟨cl, e, hid, he, hne, hfr, hal, -⟩ :=
    Http.sso_enforced (ctxOf p n q) (p.http b) (reqOf p b q) sso hs hcov hp
  rcases creds_identity rfl hid with ⟨tok, c, ht, hval, rfl⟩ | ⟨tok, c, ht, hval, rfl⟩
  · rw [hi] at hval
    obtain ⟨rfl, cm', host', t, t0, user, email, sid, host0, extra, auth, hm, htok, hsame, hiss, hl, hauth, -, hem, -, -,
      hexp⟩ := Token.bearer_partial tw h hv hr (p.cm b) ho _ q.now tok c hval
    unfold claimsOf at he
    rw [hem] at he
    cases he
    refine ⟨e, t0, host0, .bearer ht hiss hl hauth hm htok hsame hexp, hne, hal, ?_⟩
    rcases hfr with hf | ⟨hf, -⟩
    · exact .inl hf
    · exfalso
      unfold claimsOf at hf
      have : Token.get c "hhash" = none := by
        rw [htok]
        unfold Token.idToken
        dsimp only
        rw [Token.get_set_ne _ _ (by decide), Token.get_set_ne _ _ (by decide),
          Token.get_filter (fun k => !Token.notCopied.contains k)]
        rfl
      rw [this] at hf
      cases hf
  · rw [hi] at hval
    obtain ⟨rfl, t0, user, email, sid, host0, extra, hl, hauth, -, -, hexp⟩ :=
      Token.login_cookie_partial tw h hv (noRewrite_sub hr) (p.cm b) q.now tok c hval
    obtain ⟨-, -, -, -, -, k6, -, k8, k9, -⟩ := Token.reserved_claims _ _ _ _ _ _ _ _ _ hauth
    unfold claimsOf at he
    rw [k6] at he
    cases he
    refine ⟨e, t0, host0, .cookie ht hl hauth hexp, hne, hal, ?_⟩
    rcases hfr with hf | ⟨hf, t, ht', hle⟩
    · exact .inl hf
    · right
      unfold claimsOf at hf ht'
      rw [k8] at hf
      rw [k9] at ht'
      cases ht'
      change some (tw.hash host0) = some (p.hash q.req.host.toList) at hf
      rw [hh] at hf
      simp only [Option.some.injEq] at hf
      exact ⟨hf, hle, c, ht, k9⟩

/-! ## TCP -/

theorem route_name {env : Config.Env} {raw cfg : Config.Config} (h : Config.check env raw = .ok cfg)
    (hne : ∀ be ∈ cfg.backends, "" ∉ be.alpnProtos.getD []) {w : World} {down : Nat → Bool}
    (hw : Dispatch.Spec.Runs w cfg down) {n : String} {protos : List String} (hp : "" ∉ protos) {b : Nat}
    (hr : w.route n protos = .to b) :
    ∃ be, cfg.backends[b]? = some be ∧ n ∈ be.serverNames ∧ Config.Spec.route cfg.backends n protos = some b ∧
      down b = false := by
  rw [hw.route, Config.routing_partial env raw cfg h hne down n protos hp] at hr
  split at hr
  · cases hr
  · rename_i i hi
    split at hr
    · cases hr
    · rename_i hd
      cases hr
      have : ∃ be : Config.Backend, cfg.backends[b]? = some be ∧ n ∈ be.serverNames := by
        unfold Config.Spec.route at hi
        split at hi
        · rename_i j hj
          cases hi
          obtain ⟨x, -, hx⟩ := Dispatch.findSome_spec hj
          obtain ⟨hlt, hd, -⟩ := List.findIdx?_eq_some_iff_getElem.mp hx
          simp only [decide_eq_true_eq] at hd
          exact ⟨_, List.getElem?_eq_getElem hlt, hd.1⟩
        · obtain ⟨hlt, hd, -⟩ := List.findIdx?_eq_some_iff_getElem.mp hi
          simp only [decide_eq_true_eq] at hd
          exact ⟨_, List.getElem?_eq_getElem hlt, hd⟩
      obtain ⟨be, h1, h2⟩ := this
      exact ⟨be, h1, h2, hi, by simpa using hd⟩

theorem right_host {p : Proxy} {b : Nat} {n : String} {q : Ask} {be : Config.Backend}
    (hn : (p.http b).serverNames = be.serverNames)
    (hrev : (p.http b).reverse = true ↔ be.mode = "HTTP" ∨ be.mode = "HTTPS") :
    Spec.RightHost be n q (answer p b n q) := by
  intro hm ho
  apply Classical.byContradiction
  intro hc
  rw [← hn] at hc
  have := Http.misdirected_not_forwarded (ctxOf p n q) (p.http b) (reqOf p b q) (hrev.mpr hm) hc
  rcases ho with ⟨a1, a2, a3, a4, a5, ho⟩ | ⟨a1, a2, ho⟩
  · exact this.1 a1 a2 a3 a4 a5 ho
  · exact this.2.1 a1 a2 ho

theorem findSome_http {l : List Event} {b : Nat}
    (h : (l.findSome? fun
      | .http b => some b
      | _ => none) = some b) : .http b ∈ l := by
  obtain ⟨l1, a, l2, rfl, hf, -⟩ := List.findSome?_eq_some_iff.mp h
  cases a <;> simp at hf
  subst hf
  simp

theorem http_mode {w : World} {c : Dispatch.Conn} {b : Nat} (h : Event.http b ∈ Dispatch.handleConnection w c) :
    (w.be b).mode ∈ ["HTTP", "HTTPS", "LOCAL", "CONSOLE"] := by
  unfold Dispatch.handleConnection at h
  split at h
  · simp at h
  · split at h
    · simp at h
    · dsimp only at h
      split at h
      · rename_i b' _
        unfold Dispatch.dispatch at h
        dsimp only at h
        split at h
        · split at h
          · simp at h
          · unfold Dispatch.handlePassthrough at h
            simp only [List.mem_cons, reduceCtorEq, false_or] at h
            split at h
            · simp at h
            · split at h <;> simp at h
        · split at h
          · simp at h
          · split at h
            · rename_i hm
              split at h
              · simp at h
              · have hb : b = b' := by
                  unfold Dispatch.handleHTTP at h
                  simp only [List.mem_cons, reduceCtorEq, false_or] at h
                  split at h
                  · simp at h
                  · split at h
                    · simp at h
                    · split at h
                      · simp at h
                      · simpa using h
                subst hb
                rcases hm with hm | hm | hm | hm <;> simp [hm]
            · split at h
              · split at h
                · simp at h
                · unfold Dispatch.handleTLS at h
                  simp only [List.mem_cons, reduceCtorEq, false_or] at h
                  split at h
                  · simp at h
                  · split at h
                    · simp at h
                    · split at h <;> simp at h
              · simp at h
      · simp at h

/-- C126 (partial: what is known of login tokens needs the assumptions of C40 and C41 on local OpenID Connect servers;
backends without empty protocol names; a client that does not offer an empty protocol name). Whatever arrives over
TCP, and whatever is asked: protected content is served only if all of this holds. What the client sent, after a PROXY
header that only a trusted peer may send, is a well-formed ClientHello; the backend is the configured one for its name
and protocols, and is running; the number of connections is below the limit; its IP rules admit the client; its
settings for client certificates are satisfied; the request's host belongs to it; and if its single sign-on policy
covers the path, the request carries a token that stems from a login whose email address the ACL allows. -/
theorem tcp_checked_partial (p : Proxy) (env : Config.Env) (raw cfg : Config.Config) (down : Nat → Bool)
    (tw : Token.World) (h : List Token.Issue) (hp : Spec.Runs p env raw cfg down tw h)
    (hr : Token.NoRewrite ["iss", "proxyauth"] h) (ho : ∀ b, Token.OtherIssuers (p.cm b) h)
    (a : Arrival) (q : Ask) (b : Nat) (o : Http.Out) (hans : onTCP p a q = some (b, o)) (hprot : Http.Spec.Protected o) :
    ∃ addr rest g trailing, Front.Spec.Reads p.read p.nets a.peer a.bytes addr rest ∧ GHello.WF g ∧ OneName g.names ∧
      rest = [0x16, g.recordVersion.1, g.recordVersion.2] ++ vec16 g.message ++ trailing ∧
      (a.numOpen : Int) < p.w.maxOpen ∧
      Front.Spec.Admits (p.w.be b).denyIPs (p.w.be b).allowIPs addr ∧
      (∀ sso, (p.http b).sso = some sso → Spec.Identified tw h (p.cm b) sso q) ∧
      ∀ n, n = (if Front.name (g.names.getLastD []) = "" then p.w.defaultServerName else Front.name (g.names.getLastD [])) →
        (∀ sni, a.client.sni = sni → sni ≠ "" → sni = n) ∧
        ("" ∉ g.protos.map Front.name →
          ∃ be, cfg.backends[b]? = some be ∧ Config.Spec.route cfg.backends n (g.protos.map Front.name) = some b ∧
            n ∈ be.serverNames ∧ down b = false ∧ be.mode ∈ ["HTTP", "HTTPS", "LOCAL", "CONSOLE"] ∧
            Spec.Certified be a.client ∧ Spec.RightHost be n q o ∧
            (n = a.client.sni → g.protos.map Front.name = a.client.protos →
              "h3" ∉ be.alpnProtos.getD [] ∨ "h3" ∉ a.client.protos →
              ∀ crt, be.clientAuth ≠ none → a.client.cert = some crt → ¬ Dispatch.Spec.revoked p.w b crt)) := by
  unfold onTCP at hans
  obtain ⟨⟨b', n'⟩, hacc, hb⟩ := Option.map_eq_some_iff.mp hans
  simp only [Prod.mk.injEq] at hb
  obtain ⟨rfl, rfl⟩ := hb
  unfold acceptTCP at hacc
  split at hacc
  · cases hacc
  · rename_i sni protos hhello
    obtain ⟨b'', hf, heq⟩ := Option.map_eq_some_iff.mp hacc
    simp only [Prod.mk.injEq] at heq
    obtain ⟨rfl, hn'⟩ := heq
    have hmem := findSome_http hf
    have hmode := http_mode hmem
    obtain ⟨pre, post, hsplit⟩ := List.append_of_mem hmem
    unfold Front.handle at hsplit
    obtain ⟨hnum, sni', protos', hh, hroute, hip, -, hterm⟩ :=
      Dispatch.no_contact_before_checks p.w _ pre post _ b'' hsplit rfl
    dsimp only at hh hip hterm
    rw [hhello] at hh
    simp only [Option.some.injEq, Prod.mk.injEq] at hh
    obtain ⟨rfl, rfl⟩ := hh
    obtain ⟨rest, g, t, hb, h1, h2, h3, rfl, rfl⟩ := Front.hello_some hhello
    have hpass : (p.w.be b'').mode ≠ "TLSPASSTHROUGH" := by
      intro hc
      rw [hc] at hmode
      simp at hmode
    obtain ⟨-, cert, -, hsn, hcert⟩ := hterm hpass
    refine ⟨_, rest, g, t, Front.unwrap_reads (Prod.ext rfl hb), h1, h2, h3, hnum,
      (Dispatch.ip_rules _ _ _).mp hip,
      fun sso hs => identified hp.history hp.issued hp.hash hr (ho b'') hs hprot, ?_⟩
    rintro n rfl
    refine ⟨?_, ?_⟩
    · rintro x rfl hx
      rw [if_neg hx] at hsn
      exact hsn.symm
    · intro hemp
      obtain ⟨be, hbe, hname, hspec, hdown⟩ := route_name hp.accepted hp.noEmpty hp.world hemp hroute
      refine ⟨be, hbe, hspec, hname, hdown, ?_, ?_, ?_, ?_⟩
      · rw [← hp.world.mode _ _ hbe]; exact hmode
      · intro ca hca
        obtain ⟨crt, -, hc1, hc2, hc3⟩ := hcert ca.acl (by rw [hp.world.auth _ _ hbe, hca]; rfl)
        exact ⟨crt, hc1, hc2, (Dispatch.acl_exact _ _).mp hc3⟩
      · rw [← hn']
        exact right_host (hp.names _ _ hbe) (hp.reverse _ _ hbe)
      · intro hsni hpr hno3 crt hca hcrt hrev
        have hauth : (p.w.be b'').clientAuth ≠ none := by
          rw [hp.world.auth _ _ hbe]
          cases hx : be.clientAuth with
          | none => exact absurd hx hca
          | some ca => simp
        have hnone : Dispatch.handshake p.w (p.w.be b'') (p.w.be b'').nextProtosTCP false a.client = none := by
          refine Dispatch.handshake_revoked hauth hcrt hrev fun x hneg => ?_
          rw [← hsni]
          rw [← hpr] at hneg hno3
          exact Dispatch.route_again env raw cfg hp.accepted hp.noEmpty p.w down hp.world b'' be hbe _ _ hemp hno3
            hroute x hneg
        unfold Front.handle at hmem
        exact (Dispatch.handshake_none_no_contact hpass fun _ => hnone).1 hmem

/-! ## QUIC -/

/-- C126 over QUIC (partial: moreover raw TCP and TLS backends do not declare `h3`, see C85). Protected content is
served only if the backend declares the server name together with a protocol that the client offers; the number of
connections is below the limit; its IP rules admit the client; its settings for client certificates are satisfied with
a certificate that is not revoked; the request's host belongs to it; and its single sign-on policy is satisfied. -/
theorem quic_checked_partial (p : Proxy) (env : Config.Env) (raw cfg : Config.Config) (down : Nat → Bool)
    (tw : Token.World) (h : List Token.Issue) (hp : Spec.Runs p env raw cfg down tw h)
    (hr : Token.NoRewrite ["iss", "proxyauth"] h) (ho : ∀ b, Token.OtherIssuers (p.cm b) h)
    (hraw : ∀ be ∈ cfg.backends, be.mode = "TCP" ∨ be.mode = "TLS" → "h3" ∉ be.alpnProtos.getD [])
    (c : QConn) (hpr : "" ∉ c.client.protos) (q : Ask) (b : Nat) (o : Http.Out)
    (hans : onQUIC p (Config.tableOf cfg.backends) c q = some (b, o)) (hprot : Http.Spec.Protected o) :
    ∃ be proto, cfg.backends[b]? = some be ∧ c.client.sni ∈ be.serverNames ∧ proto ∈ be.alpnProtos.getD [] ∧
      proto ∈ c.client.protos ∧ be.mode ≠ "TLSPASSTHROUGH" ∧ (c.numOpen : Int) < p.w.maxOpen ∧
      Front.Spec.Admits (p.w.be b).denyIPs (p.w.be b).allowIPs c.addr ∧ Spec.Certified be c.client ∧
      (be.clientAuth ≠ none → ∃ crt, c.client.cert = some crt ∧ ¬ Dispatch.Spec.revoked p.w b crt) ∧
      Spec.RightHost be c.client.sni q o ∧
      ∀ sso, (p.http b).sso = some sso → Spec.Identified tw h (p.cm b) sso q := by
  unfold onQUIC at hans
  obtain ⟨b', hacc, hb⟩ := Option.map_eq_some_iff.mp hans
  simp only [Prod.mk.injEq] at hb
  obtain ⟨rfl, rfl⟩ := hb
  have : ∃ e, e ∈ Dispatch.handleQUIC p.w (Config.tableOf cfg.backends) c ∧ Dispatch.Spec.qcontact e = some b' := by
    unfold acceptQUIC at hacc
    obtain ⟨l1, e, l2, heq, hf, -⟩ := List.findSome?_eq_some_iff.mp hacc
    refine ⟨e, by rw [heq]; simp, ?_⟩
    cases e <;> simp at hf
    · subst hf; rfl
    · obtain ⟨-, rfl⟩ := hf; rfl
  obtain ⟨e, hmem, hcont⟩ := this
  obtain ⟨pre, post, hsplit⟩ := List.append_of_mem hmem
  obtain ⟨be, proto, hbe, hname, hp1, hp2, hm, hn, hip, -, hcert⟩ :=
    Dispatch.quic_admission_partial env raw cfg hp.accepted hp.noEmpty hraw p.w down hp.world c hpr pre post e b' hsplit hcont
  refine ⟨be, proto, hbe, hname, hp1, hp2, hm, hn, (Dispatch.ip_rules _ _ _).mp hip, ?_, ?_,
    right_host (hp.names _ _ hbe) (hp.reverse _ _ hbe),
    fun sso hs => identified hp.history hp.issued hp.hash hr (ho b') hs hprot⟩
  · intro ca hca
    obtain ⟨crt, hc1, hc2, -, hc3⟩ := hcert ca.acl (by rw [hp.world.auth _ _ hbe, hca]; rfl)
    exact ⟨crt, hc1, hc2, (Dispatch.acl_exact _ _).mp hc3⟩
  · intro hca
    cases hx : be.clientAuth with
    | none => exact absurd hx hca
    | some ca =>
      obtain ⟨crt, hc1, -, hc2, -⟩ := hcert ca.acl (by rw [hp.world.auth _ _ hbe, hx]; rfl)
      exact ⟨crt, hc1, hc2⟩

/-! ## Conversely -/

/-- C126 (streams). An HTTP server gets a QUIC connection only as HTTP/3, or if its backend is of one of the modes that
serve HTTP. -/
theorem quic_mode (p : Proxy) (declared : String → String → Option Nat) (c : QConn) (b : Nat)
    (h : acceptQUIC p declared c = some b) :
    Dispatch.QEvent.http3 b ∈ Dispatch.handleQUIC p.w declared c ∨
    (Dispatch.QEvent.streams b ∈ Dispatch.handleQUIC p.w declared c ∧ (p.w.be b).mode ∈ ["HTTP", "HTTPS", "LOCAL", "CONSOLE"]) := by
  unfold acceptQUIC at h
  obtain ⟨l1, a, l2, hl, hf, -⟩ := List.findSome?_eq_some_iff.mp h
  rw [hl]
  cases a <;> simp only [reduceCtorEq] at hf
  · cases hf; exact .inl (by simp)
  · split at hf
    · rename_i hm
      cases hf
      refine .inr ⟨by simp, ?_⟩
      simp only [List.mem_cons, List.not_mem_nil, or_false] at hm ⊢
      rcases hm with h | h | h | h <;> simp [h]
    · cases hf

/-- C126 (streams, conversely). A connection of a backend in one of these modes is served. -/
theorem quic_served (p : Proxy) (declared : String → String → Option Nat) (c : QConn) (b : Nat)
    (hs : Dispatch.QEvent.streams b ∈ Dispatch.handleQUIC p.w declared c)
    (hm : (p.w.be b).mode ∈ ["HTTP", "HTTPS", "LOCAL", "CONSOLE"]) : ∃ b', acceptQUIC p declared c = some b' := by
  rw [← Option.isSome_iff_exists]
  unfold acceptQUIC
  rw [List.findSome?_isSome_iff]
  refine ⟨_, hs, ?_⟩
  dsimp only
  rw [if_pos]
  · rfl
  · simp only [List.mem_cons, List.not_mem_nil, or_false] at hm ⊢
    rcases hm with h | h | h | h <;> simp [h]

/-- C126, conversely: who logged in with the backend's provider less than 20 hours ago, and sends the cookie they got
then and no bearer token, is not asked to log in again and not denied, if the ACL allows their email address and the
login is recent enough and was made on this host, should that be demanded. -/
theorem login_honoured (p : Proxy) (tw : Token.World) (h : List Token.Issue) (hv : Token.Valid tw h)
    (hi : p.issued = Token.issued tw h) (hh : p.hash = tw.hash) (b : Nat) (n : String) (q : Ask) (sso : Http.SSO)
    (hs : (p.http b).sso = some sso) (t0 : Nat) (user email sid host0 : Token.Str) (extra tok : Token.Claims)
    (hl : Token.Issue.login (p.cm b) t0 user email sid host0 extra ∈ h)
    (ht : Token.authToken tw.hash (p.cm b) t0 user email sid host0 extra = some tok)
    (hnbf : Token.get extra "nbf" = none) (hexp : q.now < t0 + 72000)
    (ha : q.tokens.auth = some tok) (hb : q.tokens.bearer = none) (hal : Http.Spec.Allowed sso.acl email)
    (hf : sso.forceReAuth = 0 ∨ (host0 = q.req.host.toList ∧ (q.now : Int) - t0 ≤ sso.forceReAuth)) :
    answer p b n q ≠ .login ∧ answer p b n q ≠ .denied := by
  obtain ⟨k1, k2, k3, k4, k5, k6, -, k8, k9, k10, k11, k12, k13⟩ := Token.reserved_claims _ _ _ _ _ _ _ _ _ ht
  have hmem : tok ∈ p.issued := by
    rw [hi]
    have := Token.valid_login hv hl
    rw [ht] at this
    cases this
    exact List.mem_map.mpr ⟨_, hl, rfl⟩
  have htimes : Token.timesOk q.now tok = true := by
    unfold Token.timesOk
    rw [k10, k11 "nbf" (by decide), hnbf]
    simp [hexp]
  have hval : Token.validateAuthToken p.issued (p.cm b) q.now tok = some tok := by
    unfold Token.validateAuthToken Token.validate
    rw [if_pos (by simp [hmem, htimes])]
    dsimp only
    rw [if_neg (by simp [Token.issOk, Token.audOk, k1, k2]), if_neg (by simp [k3, k4]), k5]
    simp [k12]
  have hid : Http.Spec.identity (reqOf p b q) = some (claimsOf tok) := by
    unfold Http.Spec.identity reqOf creds
    dsimp only
    rw [hb, ha]
    simp only [Option.bind_none, Option.map_none, Option.bind_some, hval, Option.map_some, Option.none_or]
    rw [Option.filter_eq_some_iff]
    refine ⟨rfl, ?_⟩
    unfold claimsOf
    rw [k6]
    simpa using k13
  have := Http.sso_admits (ctxOf p n q) (p.http b) (reqOf p b q) sso hs (claimsOf tok) email hid
    (by unfold claimsOf; rw [k6]) ?_ hal
  · constructor
    · intro hc; exact this (.inl hc)
    · intro hc; exact this (.inr hc)
  · rcases hf with hf | ⟨hf1, hf2⟩
    · exact .inl hf
    · refine .inr ⟨?_, t0, ?_, hf2⟩
      · unfold claimsOf
        rw [k8, hf1, ← hh]
        rfl
      · unfold claimsOf
        rw [k9]

/-! ## Examples -/

/-- One reverse proxy backend for the name "a", with client certificates and single sign-on. -/
def Spec.raw : Config.Config where
  cacheDir := "/c"
  maxOpen := 100
  oidc := [{ name := "p", discoveryURL := "d", redirectURL := "r", clientID := "i", clientSecret := "s" }]
  backends := [{ serverNames := ["a"], alpnProtos := some ["h2"], mode := "HTTPS", addresses := ["x:1"],
                 clientAuth := some { rootCAs := ["ca"], acl := some ["EMAIL:me"] },
                 sso := some { provider := "p" } }]

def Spec.cfg : Config.Config := Config.normalise Config.Spec.env Spec.raw

/-- It runs with an access list for the domain "x" and denies the network 10. -/
def Spec.proxy : Proxy where
  read := Front.Spec.read
  nets := []
  w := { route := Config.route (Config.tableOf Spec.cfg.backends) (fun _ => false)
         be := fun _ => { mode := "HTTPS", protos := ["h2"], clientAuth := some (some ["EMAIL:me"]),
                          denyIPs := some [⟨[10, 0, 0, 0], 8⟩],
                          pkiMap := fun k => if k = "ca" then some 7 else none }
         isRevoked := fun _ n => n == 13
         ocspOK := fun _ => true
         defaultServerName := ""
         maxOpen := 100 }
  http := fun _ => { serverNames := ["a"], addresses := ["x:1"], sso := some { acl := some ["@x".toList] } }
  cm := fun _ => Token.Ex.cm
  issued := Token.issued Token.Ex.w Token.Ex.hist
  hash := Token.Ex.w.hash

theorem Spec.proxy_runs : Spec.Runs Spec.proxy Config.Spec.env Spec.raw Spec.cfg (fun _ => false) Token.Ex.w
    Token.Ex.hist := by
  have hb : ∀ (i : Nat) (be : Config.Backend), Spec.cfg.backends[i]? = some be → be = (Config.normBackend Config.Spec.env true
      (Spec.raw.backends.head (by decide))) := by
    intro i be h
    have : be ∈ Spec.cfg.backends := List.mem_of_getElem? h
    have hl : Spec.cfg.backends = [Config.normBackend Config.Spec.env true (Spec.raw.backends.head (by decide))] := by
      decide
    rw [hl] at this
    simpa using this
  refine ⟨Config.accepted (by decide), by decide, ⟨fun _ _ => rfl, ?_, ?_, ?_⟩, ?_, ?_, Token.Ex.hist_valid, rfl, rfl⟩
  all_goals
    intro i be h
    rw [hb i be h]
    first | rfl | exact ⟨fun _ => by decide, fun _ => rfl⟩

def Spec.forwarded : Http.Out → Bool
  | .forward .. => true
  | _ => false

def Spec.arrival (peer : IP) (serial : Nat) : Arrival where
  peer := some peer
  bytes := Front.Spec.helloBytes
  numOpen := 1
  client := { sni := "a", protos := ["h2"], cert := some { emails := ["me"], authorityKeyId := "ca", serial := serial } }

def Spec.ask (host : String) (t : Tokens) : Ask where
  req := { path := "/x".toList, host := host }
  tokens := t
  now := 300

/-- Non-vacuity: with the login cookie the request is forwarded; without it, for another host, from a denied network
or with a revoked certificate it is not. -/
example :
    ((onTCP Spec.proxy (Spec.arrival [8, 8, 8, 8] 1) (Spec.ask "a" { auth := some Token.Ex.aTok })).map
      fun x => (x.1, Spec.forwarded x.2)) = some (0, true) ∧
    ((onTCP Spec.proxy (Spec.arrival [8, 8, 8, 8] 1) (Spec.ask "a" {})).map
      fun x => (x.1, Spec.forwarded x.2)) = some (0, false) ∧
    ((onTCP Spec.proxy (Spec.arrival [8, 8, 8, 8] 1) (Spec.ask "b" { auth := some Token.Ex.aTok })).map
      fun x => (x.1, Spec.forwarded x.2)) = some (0, false) ∧
    ((onTCP Spec.proxy (Spec.arrival [10, 8, 8, 8] 1) (Spec.ask "a" { auth := some Token.Ex.aTok })).map
      fun x => x.1) = none ∧
    ((onTCP Spec.proxy (Spec.arrival [8, 8, 8, 8] 13) (Spec.ask "a" { auth := some Token.Ex.aTok })).map
      fun x => x.1) = none := by
  refine ⟨?_, ?_, ?_, ?_, ?_⟩ <;> decide +kernel

example : Token.NoRewrite ["iss", "proxyauth"] Token.Ex.hist ∧ Token.OtherIssuers Token.Ex.cm Token.Ex.hist := by
  refine ⟨Token.Ex.hist_noRewrite _, ?_⟩
  intro iss rules now q user hm
  simp only [Token.Ex.hist, Token.Ex.aUrl, Token.Ex.anOidc, Token.Ex.anID, Token.Ex.aLogin, List.mem_cons,
    List.not_mem_nil, or_false, reduceCtorEq, false_or, Token.Issue.oidc.injEq] at hm
  obtain ⟨rfl, -⟩ := hm
  decide

/-- Over QUIC. -/
example :
    ((onQUIC Spec.proxy (Config.tableOf Spec.cfg.backends)
      { client := (Spec.arrival [8, 8, 8, 8] 1).client, numOpen := 1, addr := some [8, 8, 8, 8] }
      (Spec.ask "a" { auth := some Token.Ex.aTok })).map fun x => (x.1, Spec.forwarded x.2)) = some (0, true) := by
  decide +kernel

end Verif.EndToEnd
