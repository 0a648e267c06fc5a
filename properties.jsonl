{"id": "C01", "title": "ClientHello routing data is extracted exactly", "statement": "When a TLS client opens a connection with a well-formed ClientHello that fits in one record, the server name and the ALPN protocol list the proxy routes on are exactly the ones the client put in its hello, whatever the session id, cipher suites, compression methods and unrelated extensions, and whatever follows the record on the wire.", "quantifier": "every version/random/session id/cipher list/compression list, every list of extensions in every order, every ALPN list, every trailing byte string", "why_tests_cant": "The space of hellos (extension orders, lengths, unknown extensions) is unbounded; tests only replay a few captures.", "anchors": ["proxy/hello.go:peekClientHello"]}
{"id": "C02", "title": "Arbitrary first bytes never crash the ClientHello parser", "statement": "Whatever bytes a peer sends first, inspecting them yields either routing data or an error: the parser never panics, and it never waits for more than the announced record (5 + 16384 bytes at most).", "quantifier": "every finite byte string a peer may send before stalling or closing", "why_tests_cant": "Malformed inputs are unbounded and a panic needs one specific length field; fuzzing can miss it, and absence for all inputs cannot be tested.", "anchors": ["proxy/hello.go:peekClientHello"]}
{"id": "C03", "title": "Peeking is invisible to the consumer of the connection", "statement": "However the proxy interleaves looking ahead at a client connection with reading from it, and however the network fragments the data, the concatenation of everything read is exactly a prefix of what the client sent, in order, without loss or duplication, and nothing looked-ahead is lost.", "quantifier": "every sequence of peeks and reads of any size, every fragmentation of the stream", "why_tests_cant": "Interleavings and fragmentations are unbounded; a lost or repeated byte shows only for specific size combinations.", "anchors": ["proxy/internal/netw/netw.go:Conn.Peek", "proxy/internal/netw/netw.go:Conn.Read"]}
{"id": "C04", "title": "Connections are routed by server name and client ALPN preference", "statement": "For an accepted configuration, a connection for server name N offering ALPN protocols P1,P2,... goes to the backend that declares N together with the earliest Pi that any backend declares for N; if no backend declares any of them, to the first configured backend that declares N; and it is refused iff no backend declares N (or the chosen one is shutting down).", "quantifier": "every configuration that passes validation, every server name, every protocol list", "why_tests_cant": "The lookup table is built by mutation over all backends and names; the interaction of overlapping names and protocols is combinatorial.", "anchors": ["proxy/proxy.go:Proxy.Reconfigure", "proxy/proxy.go:Proxy.backend", "proxy/config.go:Config.Check"]}
{"id": "C05", "title": "Accepted configurations are unambiguous about (server name, protocol)", "statement": "If configuration validation succeeds, then no two backends declare the same (server name, ALPN protocol) pair, a backend that disables ALPN never shares a server name with an earlier backend, and reordering backends cannot change which backend serves a declared (server name, protocol) pair.", "quantifier": "every list of backends with any server names and protocols", "why_tests_cant": "Requires all pairs of backends over all configurations, and all permutations.", "anchors": ["proxy/config.go:Config.Check"]}
{"id": "C06", "title": "Unknown server names get an alert and reach no backend", "statement": "A TCP connection whose server name (or, without SNI, the default server name) belongs to no configured backend receives exactly one fatal unrecognized_name alert, is closed, and causes no backend connection and no request.", "quantifier": "every ClientHello, every configuration", "why_tests_cant": "Negative claim over all names and configurations.", "anchors": ["proxy/proxy.go:Proxy.handleConnection", "proxy/hello.go:sendUnrecognizedName"]}
{"id": "C07", "title": "IP allow/deny rules decide admission exactly as documented", "statement": "With deny and allow lists configured, a remote address is admitted iff it is in no denied network and, when an allow list is present (even empty), it is in some allowed network; addresses that are not IP addresses are refused.", "quantifier": "every deny list, allow list (present or absent) and remote address", "why_tests_cant": "Order of the rules, nil versus empty lists and overlaps are a product of unbounded lists.", "anchors": ["proxy/backend.go:Backend.checkIP"]}
{"id": "C08", "title": "No backend is contacted before admission checks pass", "statement": "For every TCP connection, in every mode, a backend server is dialed or an HTTP handler invoked only after: the open-connection limit check, a parsed ClientHello, a known and live backend, the backend's IP rules, and (when TLS is terminated) a completed handshake whose server name equals the routed name and whose client certificate satisfies the backend's ACL. An ACME challenge connection never reaches a backend.", "quantifier": "every connection (hello, remote address, handshake outcome, certificate) against every backend configuration", "why_tests_cant": "Requires all paths through the dispatch code for every mode and input.", "anchors": ["proxy/proxy.go:Proxy.handleConnection", "proxy/proxy.go:Proxy.authorizeTLSConnection", "proxy/proxy.go:Proxy.handleTLSConnection", "proxy/proxy.go:Proxy.handleTLSPassthroughConnection", "proxy/proxy.go:Proxy.handleHTTPConnection"]}
{"id": "C09", "title": "The number of served connections never exceeds MaxOpen", "statement": "At every moment, under every interleaving of arrivals and departures, the number of connections admitted past the limit check and not yet closed is at most MaxOpen; and the limit is usable: MaxOpen connections can be served at the same time.", "quantifier": "every MaxOpen, every interleaving of connection arrivals, limit checks and closes", "why_tests_cant": "Schedules are unbounded and the check is not atomic with registration.", "anchors": ["proxy/proxy.go:Proxy.handleConnection", "proxy/conntracker.go:connTracker.add", "proxy/quic.go:Proxy.handleQUICConnection"]}
{"id": "C10", "title": "Closing a connection runs its cleanup exactly once", "statement": "However many goroutines close a connection and however often, the close callback runs exactly once after the first close, so the tracked set of open connections and a backend's in-flight count return to their previous values and are never decremented twice.", "quantifier": "every interleaving of any number of Close calls with other operations", "why_tests_cant": "Double close happens only on particular schedules.", "anchors": ["proxy/internal/netw/netw.go:Conn.Close", "proxy/internal/netw/quic.go:QUICConn.Close", "proxy/proxy.go:Proxy.handleConnection"]}
{"id": "C11", "title": "Client certificate ACL grants exactly the listed identities", "statement": "With an ACL configured, a client certificate is authorized iff the ACL lists its non-empty subject (bare or with SUBJECT:), or DNS:, EMAIL: or URI: plus one of its corresponding alternative names. Without an ACL every verified certificate is authorized; with an empty ACL none is.", "quantifier": "every ACL and every certificate", "why_tests_cant": "All list/name combinations; prefix confusion between name types.", "anchors": ["proxy/backend.go:Backend.authorize"]}
{"id": "C12", "title": "A revoked client certificate is refused by backends that require client authentication", "statement": "A client presenting a certificate that the backend's local CA has revoked, or whose OCSP status is revoked, cannot complete the handshake with a backend that requires client authentication.", "quantifier": "every backend configuration sharing server names, every offered protocol list, every certificate and revocation state", "why_tests_cant": "Depends on which backend the handshake check consults versus which one serves, over all ALPN combinations.", "anchors": ["proxy/proxy.go:Proxy.Reconfigure (VerifyConnection)", "proxy/proxy.go:Proxy.backend"]}
{"id": "C13", "title": "Round robin spreads dials evenly and never goes out of range", "statement": "With n addresses, the position used for the next dial always stays below n, under any interleaving of concurrent dials and outcomes, and in any run of k*n attempts every address is attempted exactly k times, so no address is starved.", "quantifier": "every address list, every number of concurrent dials, every success/failure pattern, every interleaving", "why_tests_cant": "Schedules and failure patterns are unbounded.", "anchors": ["proxy/backend.go:Backend.dial", "proxy/quic.go:Backend.dialQUICBackend"]}
{"id": "C14", "title": "A dial fails only after every address was tried", "statement": "A forwarding attempt returns an error only if a connection to each of the configured addresses was attempted and failed during that attempt; if any address is reachable the client is connected.", "quantifier": "every address list, starting position, reachability pattern and concurrent dials", "why_tests_cant": "Depends on interleaving with other dials sharing the rotation position.", "anchors": ["proxy/backend.go:Backend.dial"]}
{"id": "C15", "title": "Graceful backend close never closes twice and waits for in-flight connections", "statement": "When a backend is closed gracefully (configuration change or shutdown), no new connection is accepted by it, its hand-off channel is closed at most once ever, and not before the number of registered in-flight connections drops to zero (unless a hard stop is requested).", "quantifier": "every interleaving of graceful closes, hard closes, connection starts and ends", "why_tests_cant": "Double close panics only under specific schedules.", "anchors": ["proxy/backend.go:Backend.close", "proxy/backend.go:Backend.incInFlight", "proxy/proxy.go:Proxy.backend"]}
{"id": "C16", "title": "Graceful shutdown waits for requests and terminates when they are done", "statement": "Graceful shutdown stops the proxy only when no HTTP/QUIC/console connection is left open or the caller's deadline has passed; and once all such connections are closed it does finish without waiting for the deadline.", "quantifier": "every interleaving of connection closes with the waiting goroutine", "why_tests_cant": "A lost wake-up needs one precise interleaving.", "anchors": ["proxy/proxy.go:Proxy.Shutdown", "proxy/proxy.go:Proxy.handleConnection (OnClose)"]}
{"id": "C17", "title": "Bridging relays every byte in order in both directions", "statement": "For a raw (TCP/TLS/passthrough) connection, each side receives a prefix of what the other side sent, in order; when one direction ends normally and is configured not to end the connection, the other direction keeps flowing until it ends or the half-close timeout; when configured to end it, both ends are closed.", "quantifier": "every pair of byte streams, every interleaving of the two directions, every close flag setting", "why_tests_cant": "Interleavings and half-close orders are unbounded.", "anchors": ["proxy/backend.go:Backend.bridgeConns", "proxy/backend.go:forward"]}
{"id": "C18", "title": "PROXY header precedes client data exactly once", "statement": "When the PROXY protocol is enabled for a forwarding TCP destination, the first bytes the backend server receives are one PROXY header describing the real client connection, followed by client data; when it is disabled no header is sent; if writing the header fails the connection is not used.", "quantifier": "every protocol version, every client stream, every address list and failure pattern", "why_tests_cant": "All failure/retry sequences.", "anchors": ["proxy/backend.go:Backend.dial", "proxy/backend.go:writeProxyHeader"]}
{"id": "C19", "title": "A rejected reconfiguration leaves the running proxy unchanged", "statement": "If applying a new configuration returns an error, the routing table, limits and every other behaviour of the running proxy stay as they were.", "quantifier": "every running configuration and every new configuration, failing at every possible step", "why_tests_cant": "Requires considering failure at each step of a long procedure.", "anchors": ["proxy/proxy.go:Proxy.Reconfigure"]}
{"id": "C20", "title": "A backend that names a bandwidth limit gets that limit", "statement": "In an accepted configuration, a backend that references bandwidth limit group L has its connections limited with L's ingress and egress values, and groups with different names never share or overwrite each other's values, across any sequence of reconfigurations.", "quantifier": "every list of limit groups and backends, every sequence of reconfigurations", "why_tests_cant": "Name collisions are input dependent; state survives reconfigurations.", "anchors": ["proxy/proxy.go:Proxy.Reconfigure (bwLimits)", "proxy/config.go:Config.Check"]}
{"id": "C21", "title": "After reconfiguration no connection stays open that the new policy forbids", "statement": "After a successful reconfiguration every already open connection whose server name is no longer served, whose backend mode changed, whose address is no longer admitted or whose client certificate is no longer authorized is closed, every other connection is left alone, and the proxy keeps running.", "quantifier": "every set of open connections in every phase, every new configuration", "why_tests_cant": "Requires all connection phases (before/after routing and handshake) times all configurations.", "anchors": ["proxy/proxy.go:Proxy.reAuthorize"]}
{"id": "C22", "title": "Path cleaning yields a canonical rooted path", "statement": "The cleaned form of any request path starts with '/', contains no empty, '.' or '..' segment (except the trailing slash), keeps a trailing slash iff the original had one (or is the root), is idempotent, and never climbs above the root.", "quantifier": "every path string", "why_tests_cant": "All strings.", "anchors": ["proxy/backend-http.go:pathClean"]}
{"id": "C23", "title": "Static file serving is confined to the document root and hides dot files", "statement": "For every request, any file the proxy opens when serving static content is the document root followed by path segments none of which is empty, '.', '..', starts with a dot or contains a backslash; nothing is opened without a document root or for methods other than GET and HEAD; an unclean path is only ever redirected.", "quantifier": "every request path, method, override prefix and file system state", "why_tests_cant": "All strings and file system states.", "anchors": ["proxy/backend-http.go:Backend.serveStaticFiles"]}
{"id": "C24", "title": "SSO-protected requests reach content only with valid, authorized identity", "statement": "On a backend with single sign-on, a request whose path is under the policy reaches the backend server, static files or a non-public local endpoint only if it carries credentials that validate to claims, that are fresh enough when re-authentication is forced, and whose email the ACL allows.", "quantifier": "every request, configuration, local endpoint set and token state", "why_tests_cant": "All paths through authentication, endpoint dispatch and policy code.", "anchors": ["proxy/backend-http.go:Backend.handleLocalEndpointsAndAuthorize", "proxy/backend-sso.go:Backend.enforceSSOPolicy", "proxy/backend-sso.go:Backend.authenticateUser"]}
{"id": "C25", "title": "SSO path rules cannot be bypassed by path tricks", "statement": "If the policy applies to prefix P, then every request whose cleaned path (the one used for overrides, static files and, by default, sent upstream) or raw path starts with P is subject to the policy, whatever dots and slashes the raw path contains.", "quantifier": "every raw path and prefix list", "why_tests_cant": "All strings.", "anchors": ["proxy/backend-sso.go:pathMatches", "proxy/backend-http.go:pathClean"]}
{"id": "C26", "title": "SSO ACL semantics", "statement": "A user with email local@domain passes the ACL iff the ACL lists the exact email or '@domain'; with no ACL everybody authenticated passes; with an empty ACL nobody does.", "quantifier": "every ACL and email", "why_tests_cant": "All strings; emails with several '@' or none.", "anchors": ["proxy/backend-sso.go:Backend.enforceSSOPolicy"]}
{"id": "C27", "title": "A configured SSO policy is enforced in every accepted configuration", "statement": "If an accepted configuration gives a backend a single sign-on policy, no client data reaches that backend's servers without an authenticated identity.", "quantifier": "every accepted configuration and connection", "why_tests_cant": "Needs all backend modes and all connections.", "anchors": ["proxy/config.go:Config.Check", "proxy/proxy.go:Proxy.handleConnection"]}
{"id": "C28", "title": "Forced re-authentication is honoured", "statement": "With ForceReAuth=d on a backend, a protected request is served only if the user's login was made on this very host and no longer than d ago.", "quantifier": "every token, host, time and duration", "why_tests_cant": "All times and tokens.", "anchors": ["proxy/backend-sso.go:Backend.enforceSSOPolicy"]}
{"id": "C29", "title": "The user-id header cannot be forged", "statement": "A request forwarded upstream carries the X-tlsproxy-user-id header only if the proxy put it there, and then its only value is the email of the validated identity of that request; a value supplied by the client never reaches the backend server.", "quantifier": "every set of client headers (any case, repeated), every configuration without an explicit forwardHttpHeaders entry for it", "why_tests_cant": "All header lists.", "anchors": ["proxy/backend-sso.go:Backend.authenticateUser", "proxy/backend-http.go:Backend.reverseProxy"]}
{"id": "C30", "title": "The user-id header is always delivered for authenticated users", "statement": "When the backend is configured to set the user-id header, every forwarded request of an authenticated user carries it, whatever headers the client sent.", "quantifier": "every set of client headers", "why_tests_cant": "One adversarial header combination suffices to break it.", "anchors": ["proxy/backend-sso.go:Backend.authenticateUser", "proxy/backend-http.go:Backend.reverseProxyDirector"]}
{"id": "C31", "title": "X-Forwarded-Client-Cert and X-Forwarded-For cannot be forged", "statement": "The X-Forwarded-Client-Cert header of a forwarded request is absent unless the proxy generated it from the verified client certificate of that connection; client supplied X-Forwarded-Client-Cert and X-Forwarded-For values never reach the backend server.", "quantifier": "every set of client headers, connection and configuration", "why_tests_cant": "All header lists.", "anchors": ["proxy/backend-http.go:Backend.reverseProxyDirector", "proxy/xfcc.go:addXFCCHeader"]}
{"id": "C32", "title": "X-Forwarded-Client-Cert values are unambiguous", "statement": "From the generated header value a reader can recover exactly each field's value: different certificates data never produce the same header, and no certificate content can introduce an extra field or element.", "quantifier": "every certificate subject, URI and DNS name strings", "why_tests_cant": "All strings including quotes, commas, semicolons, slashes.", "anchors": ["proxy/xfcc.go:encodeXFCC", "proxy/xfcc.go:encodeXFCCSubject"]}
{"id": "C33", "title": "Misdirected requests are not forwarded", "statement": "On an HTTP(S) backend, a request whose Host is not one of that backend's server names is answered 421 (or handled earlier by the policy) and is never forwarded, even on a connection made for a valid server name.", "quantifier": "every Host value and backend", "why_tests_cant": "All host strings incl. ports and empty host.", "anchors": ["proxy/backend-http.go:Backend.reverseProxy"]}
{"id": "C34", "title": "Forwarding loops are cut", "statement": "A request that already passed through this listener address is answered 508 and not forwarded again, so along any chain of such proxies each address forwards a given request at most once.", "quantifier": "every chain of forwarding hops and every initial Via header", "why_tests_cant": "Chains are unbounded; depends on exact header re-encoding.", "anchors": ["proxy/backend-http.go:Backend.reverseProxy (Via)"]}
{"id": "C35", "title": "Login cookies never reach backend servers", "statement": "The proxy's own authentication and session cookies are removed from every request forwarded to a backend server, all other cookies are preserved in order.", "quantifier": "every cookie list and policy configuration", "why_tests_cant": "All cookie lists and path policies.", "anchors": ["proxy/internal/cookiemanager/cookiemanager.go:FilterOutAuthTokenCookie", "proxy/backend-sso.go:Backend.enforceSSOPolicy"]}
{"id": "C36", "title": "Backend connections are never shared across routing or client identity", "statement": "Two requests can reuse the same upstream connection only if they came for the same server name, use the same path override, and, when the PROXY protocol is used, come from the same client connection addresses.", "quantifier": "every pair of requests", "why_tests_cant": "All pairs; depends on injectivity of the pool key.", "anchors": ["proxy/backend-http.go:Backend.reverseProxy (hostKey)"]}
{"id": "C37", "title": "Path overrides: the first matching prefix decides the destination", "statement": "On an HTTP(S) backend the first override (in configuration order) having a prefix of the cleaned request path determines where the request goes: its addresses if it has any, otherwise its document root; without a matching override the backend's own addresses or document root are used.", "quantifier": "every override list, backend configuration and path", "why_tests_cant": "All combinations of overrides and paths.", "anchors": ["proxy/backend-http.go:Backend.reverseProxy", "proxy/backend.go:Backend.dial"]}
{"id": "C38", "title": "Local endpoints: most specific match wins and only public ones skip SSO", "statement": "Among a backend's local endpoints matching a request, one for the request's specific host is preferred over a host-independent one and a longer path is preferred over a shorter one; only endpoints registered as public are served without the SSO policy.", "quantifier": "every endpoint set and request", "why_tests_cant": "All endpoint sets; sort and first-match interplay.", "anchors": ["proxy/proxy.go:Proxy.Reconfigure (sort)", "proxy/backend-http.go:Backend.handleLocalEndpointsAndAuthorize"]}
{"id": "C39", "title": "Forwarded responses carry HSTS", "statement": "Every response relayed from a backend server other than status 421 has a Strict-Transport-Security header; a value set by the server is preserved.", "quantifier": "every response", "why_tests_cant": "All header sets and status codes.", "anchors": ["proxy/backend-http.go:Backend.reverseProxyModifyResponse"]}
{"id": "C40", "title": "Only login cookies issued by this identity provider authenticate", "statement": "A request authenticates with the login cookie only if the cookie is, verbatim, a token that the proxy issued as a login cookie for the same provider to a completed login; no other token the proxy ever signs (ID token, URL token, OIDC server token) can be used as a login cookie.", "quantifier": "every history of token issuance by every component, every token presented", "why_tests_cant": "Quantifies over all histories of signed tokens and cross-component confusion.", "anchors": ["proxy/internal/cookiemanager/cookiemanager.go:CookieManager.ValidateAuthTokenCookie", "proxy/internal/cookiemanager/cookiemanager.go:CookieManager.SetAuthTokenCookie", "proxy/internal/tokenmanager/tokenmanager.go:TokenManager.ValidateToken"]}
{"id": "C41", "title": "Bearer authorization accepts only ID tokens made for this audience", "statement": "An Authorization: Bearer token authenticates a request only if it is an ID token the proxy generated for that very host (audience), by that provider; login cookies and URL tokens are not accepted as bearer tokens.", "quantifier": "every history of token issuance, every token presented, every host", "why_tests_cant": "Cross-component token confusion over all histories.", "anchors": ["proxy/internal/cookiemanager/cookiemanager.go:CookieManager.ValidateAuthorizationHeader", "proxy/internal/cookiemanager/cookiemanager.go:CookieManager.SetIDTokenCookie"]}
{"id": "C42", "title": "ID token cookies are bound to the login session", "statement": "An ID token cookie is considered valid for a request only if it was generated for that host and carries the same user and the same session as the current login cookie; otherwise a new one is generated from the login cookie.", "quantifier": "every history of logins and requests", "why_tests_cant": "All histories.", "anchors": ["proxy/internal/cookiemanager/cookiemanager.go:CookieManager.ValidateIDTokenCookie", "proxy/backend-sso.go:Backend.checkCookies"]}
{"id": "C43", "title": "URL tokens return the original URL only to the same browser session", "statement": "A URL token yields, when presented with the session cookie it was created under, exactly the URL it was created for; presented under any other session, or with any token that was not created as a URL token by the proxy, it is refused.", "quantifier": "every URL, session and history of token issuance", "why_tests_cant": "All histories and sessions.", "anchors": ["proxy/internal/tokenmanager/urltoken.go:TokenManager.URLToken", "proxy/internal/tokenmanager/urltoken.go:TokenManager.ValidateURLToken"]}
{"id": "C44", "title": "A signing key of every kind is always available", "statement": "After start-up and any sequence of key rotations at any times, the key set is non-empty and contains a key for every supported signature algorithm, so token creation never fails for lack of a key.", "quantifier": "every sequence of rotation times", "why_tests_cant": "Unbounded histories of time.", "anchors": ["proxy/internal/tokenmanager/tokenmanager.go:TokenManager.rotateKeys", "proxy/internal/tokenmanager/tokenmanager.go:TokenManager.CreateToken"]}
{"id": "C45", "title": "Tokens stay verifiable until they expire", "statement": "A token stays verifiable with the proxy's current key set from its creation until its expiration (20 hours), across all key rotations.", "quantifier": "every creation time, every rotation history including downtime", "why_tests_cant": "Unbounded histories of time.", "anchors": ["proxy/internal/tokenmanager/tokenmanager.go:TokenManager.rotateKeys", "proxy/internal/cookiemanager/cookiemanager.go:CookieManager.SetAuthTokenCookie"]}
{"id": "C46", "title": "New signing keys are published before they are used", "statement": "A token is signed with a key that has been published for at least two hours whenever the key set contains such a key of the needed kind.", "quantifier": "every key set and time", "why_tests_cant": "All key ages.", "anchors": ["proxy/internal/tokenmanager/tokenmanager.go:TokenManager.CreateToken"]}
{"id": "C47", "title": "Identity provider data cannot override reserved claims", "statement": "Whatever extra claims an identity provider returns, the issued login token's issuer, audience, subject, email, session, provider, host hash and validity times are the ones set by the proxy.", "quantifier": "every map of extra claims", "why_tests_cant": "All claim maps.", "anchors": ["proxy/internal/cookiemanager/cookiemanager.go:CookieManager.SetAuthTokenCookie"]}
{"id": "C48", "title": "Rate counters report the true rate over the requested window", "statement": "After any sequence of increments and time steps the counter's value is the sum of all increments, and the reported rate over a period that the counter covers is the amount added in that period divided by its length; a period longer than the history reports over the available history.", "quantifier": "every sequence of increments, time steps and queries, every resolution and period", "why_tests_cant": "Ring buffer wrap-around over unbounded histories.", "anchors": ["proxy/internal/counter/counter.go:Counter.Incr", "proxy/internal/counter/counter.go:Counter.Rate"]}
{"id": "C49", "title": "Byte counters equal bytes transferred", "statement": "At any time the reported bytes received/sent of a connection equal exactly the bytes handed to / accepted from the application on that connection, with partial reads and errors included.", "quantifier": "every sequence of reads and writes with any results", "why_tests_cant": "All sequences.", "anchors": ["proxy/internal/netw/netw.go:Conn.Read", "proxy/internal/netw/netw.go:Conn.Write"]}
{"id": "C50", "title": "The console never shows OIDC client secrets", "statement": "The configuration displayed on the console contains none of the configured OIDC client secrets (for providers and for local OIDC clients), and the running configuration is not modified by displaying it.", "quantifier": "every configuration", "why_tests_cant": "All configurations.", "anchors": ["proxy/metrics.go:Proxy.metricsHandler"]}
{"id": "C51", "title": "OCSP verification refuses revoked or unknown certificates", "statement": "For a non-empty list of verified chains, OCSP chain verification succeeds only if there is a chain all of whose OCSP-capable certificates have status good (or whose status could not be obtained because of an internal error); a chain containing a certificate known to be revoked or unknown never makes verification succeed.", "quantifier": "every list of chains and every responder behaviour", "why_tests_cant": "All combinations of chains and statuses.", "anchors": ["proxy/internal/ocspcache/ocsp.go:OCSPCache.VerifyChains"]}
{"id": "C52", "title": "A stapled response cannot whitewash a certificate cached as revoked", "statement": "Once an OCSP response with status revoked is cached and unexpired for a certificate, no stapled response makes the proxy accept that certificate.", "quantifier": "every stapled response and cache state", "why_tests_cant": "All cache states.", "anchors": ["proxy/internal/ocspcache/ocsp.go:OCSPCache.VerifyChains"]}
{"id": "C53", "title": "OCSP answers used are about the certificate in question and current", "statement": "An OCSP response obtained from a responder is relied on only if it is for the serial number being checked and has not expired.", "quantifier": "every responder answer", "why_tests_cant": "An adversarial or replaying responder/network can send any correctly signed answer.", "anchors": ["proxy/internal/ocspcache/ocsp.go:OCSPCache.fetchOneOCSP", "proxy/internal/ocspcache/ocsp.go:OCSPCache.Response"]}
{"id": "C54", "title": "OIDC login state is single-use, fresh and bound to the browser", "statement": "An OIDC callback logs a user in only if its state was created by a login request of this proxy at most five minutes earlier, was not used before, and equals the state cookie of the browser; each login request leads to at most one login, and the user is redirected to the URL that was requested with that state.", "quantifier": "every interleaving of login requests, callbacks, replays and time", "why_tests_cant": "All histories, including attacker replays.", "anchors": ["proxy/internal/oidc/client.go:ProviderClient.RequestLogin", "proxy/internal/oidc/client.go:ProviderClient.HandleCallback"]}
{"id": "C55", "title": "OIDC identities require a verified email of the allowed domain", "statement": "A login cookie is issued after an OIDC callback only for a non-empty email that the provider does not report as unverified and, when a hosted domain is configured, whose domain claim matches ('*' meaning any non-empty).", "quantifier": "every provider answer", "why_tests_cant": "All claim combinations.", "anchors": ["proxy/internal/oidc/client.go:ProviderClient.HandleCallback"]}
{"id": "C56", "title": "Authorization codes are single-use, short-lived and bound to the client", "statement": "The local OIDC server exchanges a code for tokens at most once, at most two minutes after it was issued, and only for the client the code was issued to, authenticated with its secret.", "quantifier": "every interleaving of authorizations, exchanges, replays and time", "why_tests_cant": "All histories.", "anchors": ["proxy/internal/oidc/server.go:ProviderServer.ServeToken", "proxy/internal/oidc/server.go:ProviderServer.ServeAuthorization"]}
{"id": "C57", "title": "The local OIDC server redirects only to registered URIs", "statement": "An authorization response (code) is only ever sent to a redirect URI registered for the requesting client id, to a user that is logged in.", "quantifier": "every authorization request and client list", "why_tests_cant": "All requests.", "anchors": ["proxy/internal/oidc/server.go:ProviderServer.ServeAuthorization"]}
{"id": "C58", "title": "The code exchange must repeat the redirect URI of the authorization", "statement": "A code is exchanged only if the redirect URI of the token request equals the one of the authorization request the code was issued for (RFC 6749 4.1.3).", "quantifier": "every history of authorizations and exchanges", "why_tests_cant": "All histories.", "anchors": ["proxy/internal/oidc/server.go:ProviderServer.ServeToken"]}
{"id": "C59", "title": "Userinfo answers once per access token and only identity claims", "statement": "The userinfo endpoint answers only to an access token issued by the token endpoint and not used or expired, at most once, and returns the claims of that login without the protocol claims (issuer, audience, times, scope, session, nonce).", "quantifier": "every interleaving of exchanges and userinfo requests", "why_tests_cant": "All histories.", "anchors": ["proxy/internal/oidc/server.go:ProviderServer.ServeUserInfo"]}
{"id": "C60", "title": "SAML logins are single-use, addressed to us and time-limited", "statement": "A SAML response logs a user in only if it is signed by the identity provider, answers a login request of this proxy at most five minutes old and not answered before, names our endpoint as recipient and our host as audience, and its validity window includes the current time (not before <= now < not on or after).", "quantifier": "every response, replay and time", "why_tests_cant": "All histories and times.", "anchors": ["proxy/internal/saml/saml.go:Provider.HandleCallback"]}
{"id": "C61", "title": "Passkey challenges are single-use and expire", "statement": "Every successful passkey registration or login consumes a distinct challenge issued by the proxy at most five minutes before; replaying a recorded ceremony never succeeds.", "quantifier": "every interleaving of ceremonies, replays and time", "why_tests_cant": "All histories.", "anchors": ["proxy/internal/passkeys/manager.go:Manager.processAttestation", "proxy/internal/passkeys/manager.go:Manager.processAssertion"]}
{"id": "C62", "title": "Passkeys are added only to the account that authenticated", "statement": "A passkey is added to a user only in a ceremony whose challenge was created for that very user's authenticated claims, with user presence and verification; a user who already has keys gets another only through the key management page.", "quantifier": "every history of ceremonies by every user", "why_tests_cant": "All histories of several users.", "anchors": ["proxy/internal/passkeys/manager.go:Manager.processAttestation"]}
{"id": "C63", "title": "A passkey login yields the identity that registered that passkey", "statement": "A passkey login produces the stored identity of the user under whom the used credential is registered, with a signature made by that credential over this challenge, user presence and verification.", "quantifier": "every history of registrations, deletions and logins", "why_tests_cant": "All histories.", "anchors": ["proxy/internal/passkeys/manager.go:Manager.processAssertion"]}
{"id": "C64", "title": "Passkey assertions are bound to our origin and to their purpose", "statement": "An assertion is accepted only if it was made on the proxy's own origin, and only against a challenge issued for logging in (not one issued for registering a key).", "quantifier": "every assertion", "why_tests_cant": "All assertions.", "anchors": ["proxy/internal/passkeys/manager.go:Manager.processAssertion"]}
{"id": "C65", "title": "Authenticator data parsing is total and exact", "statement": "Parsing authenticator data never panics on any input, rejects truncated data, and for well-formed data returns exactly the encoded relying party hash, flags, counter, credential id and key bytes.", "quantifier": "every byte string", "why_tests_cant": "All byte strings.", "anchors": ["proxy/internal/passkeys/webauthn.go:parseAuthenticatorData"]}
{"id": "C66", "title": "Users delete only their own passkeys and not the one in use", "statement": "A delete request removes at most the addressed key of the logged-in user's own account, never a key of another account, and never the key used for the current session, and requires a recent login.", "quantifier": "every history and request", "why_tests_cant": "All histories.", "anchors": ["proxy/internal/passkeys/manager.go:Manager.deleteKey", "proxy/internal/passkeys/manager.go:Manager.ManageKeys"]}
{"id": "C67", "title": "Serial numbers have unique textual keys", "statement": "Two certificates with different serial numbers never share a textual serial, so revoking or downloading one never affects another.", "quantifier": "every pair of serial numbers", "why_tests_cant": "All pairs.", "anchors": ["proxy/internal/pki/pki.go:bytesToHex"]}
{"id": "C68", "title": "Revocation is permanent and visible to handshakes and OCSP", "statement": "Once a certificate is revoked, every later handshake check and every later OCSP answer for it from this CA says revoked, whatever other certificates are issued or revoked afterwards.", "quantifier": "every history of issuing, revoking and querying", "why_tests_cant": "All histories.", "anchors": ["proxy/internal/pki/pki.go:PKIManager.RevokeCertificate", "proxy/internal/pki/pki.go:PKIManager.IsRevoked", "proxy/internal/pki/pki.go:PKIManager.OCSPResponse"]}
{"id": "C69", "title": "The served CRL is current and complete", "statement": "Every CRL served is unexpired and lists every unexpired certificate revoked before it is served; CRL numbers strictly increase.", "quantifier": "every history of revocations, CRL requests and times", "why_tests_cant": "Time granularity and cache boundaries need exact instants.", "anchors": ["proxy/internal/pki/pki.go:PKIManager.RevocationList"]}
{"id": "C70", "title": "Issued client certificates carry only the requester's identity", "statement": "A certificate issued through the management page names in its subject and email only the logged-in user's email (plus an optional requested common name marked as such); requested email, URI or IP names are not copied. It is for servers exactly if it has DNS names, for clients exactly if not, never a CA, and good for ten years; a request that cannot be stored leaves no trace.", "quantifier": "every signing request", "why_tests_cant": "All CSRs.", "anchors": ["proxy/internal/pki/http.go:PKIManager.handleRequestCert", "proxy/internal/pki/pki.go:PKIManager.IssueCertificate"]}
{"id": "C71", "title": "Only owners and admins can revoke", "statement": "A certificate's revocation through the management page succeeds only if the logged-in user owns it or is a configured admin, and the certificate exists, is unexpired and not already revoked.", "quantifier": "every user, certificate and history", "why_tests_cant": "All users and states.", "anchors": ["proxy/internal/pki/http.go:PKIManager.handleRevokeCert"]}
{"id": "C72", "title": "The OCSP responder reports good only for issued, unrevoked certificates", "statement": "The CA's OCSP responder answers good only for serial numbers it issued and did not revoke; other serials are never reported good, and other issuers are reported unknown.", "quantifier": "every request and history", "why_tests_cant": "All serials and histories.", "anchors": ["proxy/internal/pki/pki.go:PKIManager.OCSPResponse"]}
{"id": "C73", "title": "SSH certificates name exactly the logged-in user and live minutes", "statement": "An SSH certificate is issued only to an authenticated user, for exactly one principal equal to their email, as a user certificate valid from five minutes before to ten minutes after issuance, whatever the submitted key and comment.", "quantifier": "every request", "why_tests_cant": "All requests.", "anchors": ["proxy/internal/sshca/sshca.go:SSHCA.ServeCertificate"]}
{"id": "C74", "title": "Automatic revocation never touches certificates in use", "statement": "The unused-certificate clean-up asks the ACME server to revoke a certificate only if none of its names is configured on any backend, it is unexpired and the option is enabled; and every certificate it revoked is removed from the cache.", "quantifier": "every set of cached certificates and configured names, every failure point", "why_tests_cant": "All sets and failure points.", "anchors": ["proxy/revoke.go:Proxy.revokeUnusedCertificates"]}
{"id": "C75", "title": "Log filter precedence", "statement": "Whether something is logged is decided by the backend's setting if present, else the global setting if present, else it is logged.", "quantifier": "every combination of settings", "why_tests_cant": "Stated for all, trivially small but relied on.", "anchors": ["proxy/logging.go:Backend.shouldLog"]}
{"id": "C76", "title": "Only PROXY protocol v1 and v2 are accepted in the configuration", "statement": "Configuration validation accepts a proxyProtocolVersion only if it is empty (disabled), v1 or v2.", "quantifier": "every string", "why_tests_cant": "All strings.", "anchors": ["proxy/config.go:validateProxyProtoVersion"]}
{"id": "C77", "title": "An identity cookie domain must contain the login host", "statement": "Validation accepts an identity provider domain only if the provider's callback host is that domain or a subdomain of it.", "quantifier": "every host and domain string", "why_tests_cant": "All strings.", "anchors": ["proxy/config.go:Config.Check"]}
{"id": "C78", "title": "Accepted configurations are internally consistent", "statement": "If validation accepts a configuration then every backend has a known mode and a server name, every raw-mode backend has an address, LOCAL/CONSOLE backends have none, document roots are not combined with addresses, passthrough backends have no client authentication, path overrides only exist on HTTP(S) backends and their prefixes start and end with '/', and all referenced limits, providers and names resolve uniquely.", "quantifier": "every configuration", "why_tests_cant": "All configurations.", "anchors": ["proxy/config.go:Config.Check"]}
{"id": "C79", "title": "QUIC stream bookkeeping is exact", "statement": "A QUIC connection's list of open streams contains exactly the streams opened or accepted whose send and receive sides are not both finished, each once, under any order of events.", "quantifier": "every interleaving of stream opens and read/write completions", "why_tests_cant": "All interleavings.", "anchors": ["proxy/internal/netw/quic.go:QUICStream", "proxy/internal/netw/quic.go:QUICConn"]}
{"id": "C80", "title": "Closing is idempotent for QUIC connections", "statement": "For a QUIC connection the close callback runs exactly once whatever combination of local closes, callbacks registration and peer closes happens.", "quantifier": "every interleaving", "why_tests_cant": "All interleavings.", "anchors": ["proxy/internal/netw/quic.go:QUICConn.Close", "proxy/internal/netw/quic.go:QUICConn.OnClose"]}
{"id": "C81", "title": "WebSocket bridging preserves the byte stream", "statement": "The TCP server receives exactly the concatenation of the client's binary messages in order; the client receives binary messages whose concatenation is exactly what the server sent.", "quantifier": "every message sequence and chunking", "why_tests_cant": "All sequences.", "anchors": ["proxy/websocket.go:Proxy.webSocketHandler"]}
{"id": "C82", "title": "Passkey providers are backed by an existing non-passkey-cyclic provider", "statement": "A running configuration's passkey provider delegates first authentication to a different, already defined provider, so that following delegation always ends at an OIDC or SAML provider.", "quantifier": "every list of providers", "why_tests_cant": "All provider graphs.", "anchors": ["proxy/config.go:Config.Check", "proxy/proxy.go:Proxy.Reconfigure"]}
{"id": "C83", "title": "Server name matching ignores case", "statement": "A client that writes the server name with different letter case is routed to the same backend (DNS names are case-insensitive).", "quantifier": "every server name and case variant", "why_tests_cant": "All case variants.", "anchors": ["proxy/hello.go:peekClientHello", "proxy/proxy.go:Proxy.backend"]}
{"id": "C84", "title": "Alerts are valid TLS records", "statement": "Every refusal message the proxy writes itself is one well-formed fatal TLS alert record with the announced description.", "quantifier": "every alert kind", "why_tests_cant": "Stated for all kinds; relied on by clients of any version.", "anchors": ["proxy/hello.go:sendAlert"]}
{"id": "C85", "title": "QUIC connections are subject to the same admission rules", "statement": "A QUIC connection is served only by a backend declaring the exact (server name, protocol), not in passthrough mode, after the connection limit and IP rules passed.", "quantifier": "every QUIC client hello and configuration", "why_tests_cant": "All hellos and configurations.", "anchors": ["proxy/quic.go:Proxy.startQUIC", "proxy/quic.go:Proxy.handleQUICConnection"]}
{"id": "C86", "title": "Closing a backend releases its HTTP/3 server", "statement": "When a backend is closed, gracefully or not, and its last connection has ended, its HTTP/3 server is closed too.", "quantifier": "every interleaving of connection ends and closes", "why_tests_cant": "Depends on whether the last connection ends before or after the close.", "anchors": ["proxy/backend.go:Backend.incInFlight", "proxy/backend.go:Backend.close"]}
{"id": "C87", "title": "Stapling never breaks a handshake", "statement": "Obtaining an OCSP staple for one of the proxy's own certificates never fails the handshake, and a staple is attached only if it says good and comes from one of the certificate's OCSP servers or from the cache with at least an hour left.", "quantifier": "every certificate, cache content, server behaviour and interleaving", "why_tests_cant": "Needs every combination of certificate extensions, cache states and server failures.", "anchors": ["proxy/proxy.go:Proxy.baseTLSConfig", "proxy/internal/ocspcache/ocsp.go:OCSPCache.Response"]}
{"id": "C88", "title": "OCSP knowledge survives a restart", "statement": "A response that is cached when the cache is saved and has not expired when the proxy starts again is known to the restarted proxy, so that a revocation learnt earlier is not forgotten.", "quantifier": "every cache content and pair of times", "why_tests_cant": "All cache contents and times.", "anchors": ["proxy/internal/ocspcache/ocsp.go:OCSPCache.flush", "proxy/internal/ocspcache/ocsp.go:OCSPCache.load"]}
{"id": "C89", "title": "A SAML login completes in the browser that started it", "statement": "A SAML response logs in only the browser whose login request it answers, so that an attacker cannot log a victim's browser in under the attacker's account.", "quantifier": "every sequence of login requests and callbacks of any browsers", "why_tests_cant": "Needs adversarial interleavings of several browsers.", "anchors": ["proxy/internal/saml/saml.go:Provider.HandleCallback"]}
{"id": "C90", "title": "Identity provider certificates are read exactly or reported", "statement": "Reading the configured SAML certificates returns exactly the certificates in the text, or an error; it never crashes the proxy.", "quantifier": "every certificate text", "why_tests_cant": "All texts.", "anchors": ["proxy/internal/saml/saml.go:readCerts"]}
{"id": "C91", "title": "Passkey logins do not outlive the identity they stand for", "statement": "With a refresh interval configured, a passkey login cookie is issued only if the identity obtained from the other provider is at most that interval old.", "quantifier": "every history of registrations, refreshes and logins", "why_tests_cant": "All histories and times.", "anchors": ["proxy/internal/passkeys/manager.go:Manager.HandleCallback"]}
{"id": "C92", "title": "Validation accepts exactly the consistent configurations", "statement": "A configuration is accepted if and only if, after normalisation, it satisfies the written rules: every rule that is broken is reported and no configuration that follows all rules is refused.", "quantifier": "every configuration", "why_tests_cant": "Tests try configurations one at a time; both directions over all combinations of providers, backends, overrides and endpoints need a proof.", "anchors": ["proxy/config.go:Config.Check"]}
{"id": "C93", "title": "Validation only normalises, and is idempotent", "statement": "An accepted configuration is the given one with documented defaults filled in and names in normal form; checking the result again accepts it and changes nothing, so that comparing the new configuration with the running one detects exactly real changes.", "quantifier": "every accepted configuration", "why_tests_cant": "Needs the fixed-point property for all configurations.", "anchors": ["proxy/config.go:Config.Check"]}
{"id": "C94", "title": "Tokens carry exactly the claims they should", "statement": "A login token carries the reserved claims with the proxy's values and all others as supplied by the identity provider; an ID token for a backend carries the login token's claims except those private to the proxy, its own time and the audience of the host; an OpenID Connect token carries exactly the claims that the requested scopes call for, plus those written by rewrite rules.", "quantifier": "every claim name, user, scope, host and set of extra claims", "why_tests_cant": "Absence of information leaks and completeness over every claim name cannot be tested.", "anchors": ["proxy/internal/cookiemanager/cookiemanager.go:CookieManager.SetAuthTokenCookie", "proxy/internal/cookiemanager/cookiemanager.go:CookieManager.SetIDTokenCookie", "proxy/internal/oidc/server.go:ProviderServer.ServeAuthorization"]}
{"id": "C95", "title": "A new configuration is taken over completely or not at all", "statement": "Reconfiguring succeeds exactly when the configuration is the one in force, or is valid and all it needs from outside can be had; then routing, default name, certificate authorities and limits all come from the new configuration, the previous backends are retired exactly once and the open connections are re-examined exactly once; applying the configuration in force again has no effect.", "quantifier": "every history of configurations and every state of the outside world", "why_tests_cant": "Needs all histories and all failure points.", "anchors": ["proxy/proxy.go:Proxy.Reconfigure"]}
{"id": "C96", "title": "Every configured endpoint answers at its URL, and only public ones skip single sign-on", "statement": "For every configuration, the local handlers of a backend are exactly the documented ones: the login pages of its own provider, and each configured callback, passkey, PKI, SSH and OCSP endpoint at the path of its URL on the backend that serves the host; a request for such a URL reaches that handler, and only callbacks and public documents are exempt from SSO.", "quantifier": "every configuration and every request path", "why_tests_cant": "Interactions between endpoints of several providers on several hosts cannot be enumerated by tests.", "anchors": ["proxy/proxy.go:Proxy.Reconfigure", "proxy/proxy.go:addLocalHandler", "proxy/backend-http.go:Backend.localHandlersAndAuthz"]}
{"id": "C97", "title": "Passkey registration obeys the access list of the backend that hosts it", "statement": "A user may register a passkey only if the access list of the backend whose provider is that passkey manager allows them.", "quantifier": "every configuration and user", "why_tests_cant": "Depends on which backend hosts which endpoint and in which order they are configured.", "anchors": ["proxy/proxy.go:Proxy.Reconfigure", "proxy/internal/passkeys/manager.go:Manager.subjectIsAllowed"]}
{"id": "C98", "title": "A passkey login returns to the page that asked for it, in the same browser", "statement": "A completed passkey login sends the browser to exactly the page for which that browser was asked to log in; the nonce in the link to the login page works once, for five minutes, and a user who follows the steps gets there.", "quantifier": "every history of requests of any number of browsers", "why_tests_cant": "Needs all interleavings of several browsers and logins.", "anchors": ["proxy/internal/passkeys/manager.go:Manager.RequestLogin", "proxy/internal/passkeys/manager.go:Manager.HandleCallback", "proxy/internal/tokenmanager/urltoken.go:TokenManager.ValidateURLToken", "proxy/backend-sso.go:Backend.serveLogin"]}
{"id": "C99", "title": "Logins lead only to hosts the proxy serves", "statement": "The page to which a login leads is on a host that the proxy serves, whatever the requests looked like.", "quantifier": "every history of requests with arbitrary Host headers", "why_tests_cant": "Host headers are attacker-controlled; all of them matter.", "anchors": ["proxy/backend-sso.go:Backend.enforceSSOPolicy", "proxy/internal/tokenmanager/urltoken.go:TokenManager.URLToken"]}
{"id": "C100", "title": "A login is seen exactly where its provider's domain says", "statement": "The login tokens a browser presents to a host are exactly the last logins whose area contains the host: the provider's domain, or the host of the login page if the provider has none; a login counts only for its provider and for 20 hours.", "quantifier": "every history of logins and logouts, every host and time", "why_tests_cant": "Cookie scoping depends on the combination of domains, hosts and order of events.", "anchors": ["proxy/internal/cookiemanager/cookiemanager.go:CookieManager.SetAuthTokenCookie", "proxy/internal/cookiemanager/cookiemanager.go:CookieManager.ValidateAuthTokenCookie"]}
{"id": "C101", "title": "Logging out ends the login", "statement": "After a logout, and until the next login with the provider, no request of the browser to a host of the provider's domain is taken as logged in; nothing else is removed from the browser but the ID token of the host.", "quantifier": "every history before and after the logout", "why_tests_cant": "Deleting a cookie needs exactly the attributes it was set with, in every history.", "anchors": ["proxy/backend-sso.go:Backend.serveLogout", "proxy/internal/cookiemanager/cookiemanager.go:CookieManager.ClearCookies"]}
{"id": "C102", "title": "A completed login is recognised", "statement": "After a login with a provider, requests to every host of its domain are taken as logged in with it, until logout or for 20 hours.", "quantifier": "every history, host and time", "why_tests_cant": "Depends on other cookies of the same name that the browser may hold.", "anchors": ["proxy/internal/cookiemanager/cookiemanager.go:CookieManager.ValidateAuthTokenCookie", "proxy/backend-sso.go:Backend.checkCookies"]}
{"id": "C103", "title": "Permanent redirects stay on the host and the page", "statement": "Every permanent redirect the proxy makes up itself (canonical paths, missing slashes, path overrides) has a Location that a browser resolves to the same host, to a canonical path with the same segments, and with the same query, whatever bytes the request contained.", "quantifier": "every backend, path of bytes and query", "why_tests_cant": "Open redirects hide in odd byte sequences (//, backslashes, encoded characters); all must be considered.", "anchors": ["proxy/backend-http.go:redirectPermanently", "proxy/backend-http.go:Backend.localHandlersAndAuthz", "proxy/backend-http.go:serveStaticFiles"]}
{"id": "C104", "title": "Following redirects comes to an end", "statement": "A browser that follows the proxy's own permanent redirects reaches something else after at most two of them.", "quantifier": "every configuration, file system and request", "why_tests_cant": "Loops arise from combinations of endpoints, overrides and files.", "anchors": ["proxy/backend-http.go:redirectPermanently", "proxy/backend-http.go:serveStaticFiles", "proxy/backend-http.go:Backend.reverseProxy"]}
{"id": "C105", "title": "Session and ID-token cookies are the last ones the host has set", "statement": "The session and ID-token cookies that a browser presents to a host are exactly the last ones this host has set, for 30 days and 24 hours, and the ID token until logout; nothing another host does changes them. The nonces of login attempts are presented to all hosts of the provider's domain until they are taken.", "quantifier": "every history of logins, logouts and cookies of any number of hosts", "why_tests_cant": "Depends on names, domains and order of all cookies set before.", "anchors": ["proxy/internal/cookiemanager/cookiemanager.go:CookieManager.SetIDTokenCookie", "proxy/internal/cookiemanager/cookiemanager.go:SessionID"]}
{"id": "C106", "title": "OCSP requests are read as they were written", "statement": "An OCSP request that a client sends with GET, in either base64 alphabet and padded or not, or with POST, is read byte for byte; POST bodies of 4096 bytes and more, other content types and other methods are refused.", "quantifier": "every byte string, prefix, alphabet and padding", "why_tests_cant": "Whether a text contains the critical characters depends on hashes and serial numbers.", "anchors": ["proxy/internal/pki/http.go:PKIManager.ServeOCSP"]}
{"id": "C107", "title": "Revoking all certificates is complete and loses nothing", "statement": "A successful run of RevokeAllCertificates has had every unexpired certificate of the cache revoked for the given reason and removes exactly these and the expired ones; a failed run removes nothing, and nothing is sent after a refusal.", "quantifier": "every cache content, order and sequence of answers of the ACME server", "why_tests_cant": "Failures can happen at every point of the run.", "anchors": ["proxy/revoke.go:Proxy.RevokeAllCertificates", "proxy/revoke.go:Proxy.acmeAllCerts", "proxy/revoke.go:parseRevocationReason"]}
{"id": "C108", "title": "Published keys are the keys that sign", "statement": "The JWKS document lists, for every signing key of the token manager and in order, a JWK from which any reader recovers exactly that key's identifier, algorithm and public key as RFC 7517, 7518 and 8037 prescribe, and nothing of the private key.", "quantifier": "every list of keys and every key value", "why_tests_cant": "Encoding of big integers depends on the value of the key; one EC key in 128 has a coordinate with a leading zero byte.", "anchors": ["proxy/internal/tokenmanager/tokenmanager.go:TokenManager.ServeJWKS"]}
{"id": "C109", "title": "The discovery document leads back to the server", "statement": "The URLs in the OpenID Connect discovery document served by a backend's local server are answered by the endpoints they announce when requested at the host that served the document, and the issuer equals the URL prefix the document was fetched from.", "quantifier": "every Host header, path prefix and configuration", "why_tests_cant": "Depends on ports and server names of requests.", "anchors": ["proxy/internal/oidc/server.go:ProviderServer.ServeConfig", "proxy/backend-http.go:Backend.localHandler"]}
{"id": "C110", "title": "HTTP/3 is only advertised where it is served", "statement": "An Alt-Svc header is set exactly for requests that did not already come over h3, for a backend that offers h3 and has an HTTP/3 server, names the port of the request's Host header (443 if there is none), and on forwarded responses is added only to successful or redirecting ones that have none.", "quantifier": "every Host header (name, IPv4, IPv6, with or without port) and protocol", "why_tests_cant": "Host headers come in unlimited forms.", "anchors": ["proxy/backend-http.go:Backend.setAltSvc"]}
{"id": "C111", "title": "Requests travel only over connections made for them", "statement": "However dials, requests and reuse of connections interleave, a request is sent only over an open connection to an address of the path override that applies to it (or of the backend), dialled under the same server name, on which exactly the PROXY header announcing this request's client was sent first.", "quantifier": "every configuration, client, and interleaving of requests, dials and reuse", "why_tests_cant": "Connection reuse depends on timing; a wrong pool key shows only when the right requests meet.", "anchors": ["proxy/backend-http.go:Backend.reverseProxy", "proxy/backend-http.go:Backend.reverseProxyTransport", "proxy/quic.go:Backend.dialQUICBackend", "proxy/backend.go:Backend.dial"]}
{"id": "C112", "title": "Requests are sent with the configured protocol", "statement": "Every forwarded request uses the protocol configured for its path (or the client's own if so configured), the protocol offered to the server in the handshake is the same, and requests to upgrade the connection use HTTP/1.", "quantifier": "every configuration, request and history", "why_tests_cant": "Many combinations of overrides, defaults, negotiated protocols and upgrades.", "anchors": ["proxy/backend-http.go:Backend.reverseProxyTransport", "proxy/quic.go:Backend.http3Transport"]}
{"id": "C113", "title": "From the first byte to the backend: name, address and trust", "statement": "Whatever bytes arrive from whomever: a server of a backend is contacted, or its HTTP handler gets the connection, only if the bytes (after a PROXY header, which only a trusted peer may send) begin with a well-formed ClientHello, the backend is the one for the name and protocols in it, and its IP rules admit the client's address; PROXY headers from untrusted peers have no effect except that the connection is closed.", "quantifier": "every byte string, peer, list of trusted networks, configuration", "why_tests_cant": "The space of byte strings is unbounded; the claim connects parsing, trust in peers, routing and IP rules.", "anchors": ["proxy/proxy.go:Proxy.acceptProxyHeader", "proxy/proxy.go:Proxy.handleConnection", "proxy/hello.go:peekClientHello"]}
{"id": "C114", "title": "The certificate presented is the first configured one for the name", "statement": "The certificate for a client is that of the first entry of tlsCertificates one of whose server names equals or, read as a pattern, matches the name the client asks for (the default name if it asks for none); if that cannot be loaded the handshake fails instead of falling back; the certificate manager is asked exactly if there is no such entry, and for this very name. Malformed patterns match nothing but themselves.", "quantifier": "every list of entries, pattern and name without slash", "why_tests_cant": "Patterns and names are unbounded; a greedy matcher can go wrong only on particular overlaps.", "anchors": ["proxy/proxy.go:Proxy.baseTLSConfig", "proxy/proxy.go:Proxy.getCertFromConfig"]}
{"id": "C115", "title": "A reload that does not concern a server leaves its connections alone", "statement": "When a changed configuration is taken over that serves a name as before (same modes, IP rules and demands on client certificates), every connection to that name that its backend's rules admit stays open, whatever phase it is in, and the process goes on.", "quantifier": "every accepted configuration, connection, phase of its handling, and new configuration", "why_tests_cant": "Needs a reload in the middle of a handshake, or combinations of protocols and modes for one name.", "anchors": ["proxy/proxy.go:Proxy.reAuthorize", "proxy/proxy.go:Proxy.handleConnection", "proxy/proxy.go:Proxy.authorizeTLSConnection"]}
{"id": "C116", "title": "Backend servers are authenticated as configured", "statement": "In modes TLS, HTTPS and QUIC, and over HTTP/3, data of a client is sent to a server exactly if it presents a certificate for the configured name that leads to one of the CAs configured for the path override (or backend) of the request, or those of the system if none are listed, and that is not known to be revoked; unless verification is turned off there.", "quantifier": "every list of CAs, path override, request, server and certificate chain, and every interleaving of requests and dials", "why_tests_cant": "Tests use one CA and one address; mixing up the settings of a backend and its overrides shows only in particular combinations, and an attacker is needed to notice.", "anchors": ["proxy/backend.go:Backend.dial", "proxy/quic.go:Backend.dialQUICBackend", "proxy/proxy.go:loadCerts", "proxy/proxy.go:Proxy.Reconfigure"]}
{"id": "C117", "title": "Accepted configurations can reach their servers", "statement": "With every accepted configuration, a backend server that can prove to be the configured one, and is not known to be revoked, is reached.", "quantifier": "every accepted configuration, path override and server", "why_tests_cant": "Needs a configuration that no test uses.", "anchors": ["proxy/backend.go:Backend.dial", "proxy/config.go:Config.Check"]}
{"id": "C118", "title": "A SAML login says what the signed assertion says", "statement": "A document leads to a login exactly if the signature check vouches for its first assertion and what is vouched for answers a pending request, is addressed to this proxy, is within its time and names a user. User, email, session and claims in the login cookie are those that the vouched-for assertion states, whatever else the document contains; the claim source is its issuer, and comments make no difference.", "quantifier": "every document, signature check, configuration, set of pending requests and time", "why_tests_cant": "Attacks wrap a signed assertion in a larger document, repeat elements or insert comments; tests use one well-formed response of one provider.", "anchors": ["proxy/internal/saml/saml.go:Provider.HandleCallback", "proxy/internal/saml/saml.go:findElementText", "proxy/internal/saml/saml.go:findElementAttr"]}
{"id": "C119", "title": "An orderly end of a relayed stream means that all of it arrived", "statement": "When the proxy ends a stream in order towards one peer (FIN, close notification), then the other peer has ended its stream in order, and everything it sent was passed on. What has arrived is at any time a beginning of what was sent. Conversely, a stream that was ended in order, with everybody still there, ends in order at the other side after all of its data.", "quantifier": "all sequences of sends, ends, resets, losses, deadlines, reads and writes; both directions; TCP, TLS, QUIC streams and one-way QUIC streams; all configurations", "why_tests_cant": "Truncation shows only when one side breaks off at a certain moment; tests end streams in order, and protocols that delimit their messages hide the difference.", "anchors": ["proxy/backend.go:Backend.bridgeConns", "proxy/backend.go:forward", "proxy/backend.go:closeWrite", "proxy/backend.go:closeRead", "proxy/internal/netw/quic.go:QUICStream.Close"]}
{"id": "C120", "title": "When one direction of a relay ends, the other one ends within the time for half-closed connections", "statement": "Once one direction of a relay has ended and the time for half-closed connections has passed, the other direction ends too, whatever the peers do or do not do. That time begins to run only when a peer has ended its stream and all of it was passed on.", "quantifier": "all sequences of events; both directions; all kinds of links; all configurations", "why_tests_cant": "A relay that waits for ever for a silent peer is a leak that shows after days; a clock that starts too early cuts only transfers longer than a minute.", "anchors": ["proxy/backend.go:Backend.bridgeConns", "proxy/backend.go:forward", "proxy/internal/netw/quic.go:ReceiveOnlyStream", "proxy/internal/netw/quic.go:SendOnlyStream"]}
{"id": "C121", "title": "A QUIC connection and the connection to its server end together", "statement": "In mode QUIC, when the client's connection ends, the proxy closes the connection it made to the server for it, and when the server's connection ends, it closes the client's. A stream that cannot be relayed is ended or refused towards the peer that opened it.", "quantifier": "all sequences of events on both connections and any number of streams, all interleavings of the goroutines of the handler", "why_tests_cant": "The connections are held by six loops and any number of stream handlers; which of them is left waiting depends on the order in which peers go silent.", "anchors": ["proxy/quic.go:Proxy.handleQUICConnection", "proxy/quic.go:Backend.handleQUICQUICStream", "proxy/internal/netw/quic.go:QUICConn.Close"]}
{"id": "C122", "title": "The settings about who ends a connection apply to client and server whoever opened the stream", "statement": "On every relayed QUIC stream, `clientCloseEndsConnection` decides what happens when the client ends its half, and `serverCloseEndsConnection` what happens when the server does.", "quantifier": "all settings, streams opened by either peer", "why_tests_cant": "Tests open streams from the client only.", "anchors": ["proxy/quic.go:Backend.handleQUICQUICStream", "proxy/backend.go:Backend.bridgeConns", "proxy/config.go:Backend"]}
{"id": "C123", "title": "Resuming a TLS session gives a client nothing a full handshake would not", "statement": "When a client resumes an earlier TLS session instead of doing a full handshake, it reaches a backend only with a certificate that this backend would accept in a full handshake now: issued by one of the backend's own client CAs, valid, allowed by its list and not revoked.", "quantifier": "all histories of connections with and without tickets over TCP and QUIC, all reloads and revocations in between, all sets of CAs", "why_tests_cant": "Whether a ticket issued for one backend is accepted by another depends on which configuration object holds the ticket keys, which differs between the TCP and the QUIC listener; a test would need two PKIs, QUIC and a client that chooses to present a foreign ticket.", "anchors": ["proxy/proxy.go:Proxy.reconfigure", "proxy/proxy.go:Proxy.handleTLSConnection", "proxy/quic.go:Proxy.startQUIC", "proxy/proxy.go:Proxy.authorizeTLSConnection"]}
{"id": "C124", "title": "The certificate page lists what the viewer may see, and its buttons do what they say", "statement": "The PKI page lists exactly the certificates of the viewer, or those of everybody if the request asks for all, that match the filter, newest first. A revocation is carried out only for the owner or an administrator, with the CSRF protection in place. Every button the page shows succeeds when it is pressed.", "quantifier": "all sets of issued certificates, all requests, all users and lists of administrators", "why_tests_cant": "Page, script and handler are written in three files in two languages; an inconsistency between them shows only for a particular combination of role, parameters and certificate state.", "anchors": ["proxy/internal/pki/http.go:PKIManager.ServeCertificateManagement", "proxy/internal/pki/http.go:PKIManager.handleRevokeCert", "proxy/internal/pki/certs.html:1", "proxy/internal/pki/certs.js:53"]}
{"id": "C125", "title": "Every connection handed to a backend's HTTP server is served or closed, and handing over never ends the process", "statement": "A TLS connection or QUIC stream that the proxy hands over to the HTTP server of its backend is accepted by that server, or it is closed. No interleaving of hand-overs with reloads, the end of connections and a stop ends the process.", "quantifier": "all interleavings of any number of TCP connections, QUIC connections and streams with reloads, stops and the goroutines of the HTTP server", "why_tests_cant": "The channel is closed by whoever brings the count of connections to zero, while other goroutines may be about to send on it; the window is a few instructions wide.", "anchors": ["proxy/http.go:proxyListener", "proxy/backend.go:Backend.close", "proxy/backend.go:Backend.incInFlight", "proxy/proxy.go:Proxy.handleHTTPConnection", "proxy/quic.go:Proxy.handleQUICConnection"]}
{"id": "C126", "title": "Every configured check stands between the first byte and the answer", "statement": "Whatever bytes arrive on a TCP connection, or whatever QUIC connection, and whatever HTTP request follows on it with whatever tokens: the request is answered with protected content (forwarded to a server, static files, an endpoint that is not public) only if the connection was accepted for a backend of the configuration that declares the server name of the well-formed ClientHello, within the connection limit, from an address that the backend's IP rules admit (the address of the peer, unless a trusted peer announces another one), with a client certificate that satisfies the backend's settings if it has any; if the request's host belongs to the backend; and, where the backend's single sign-on policy covers the path, if the request carries a token made from a login less than 20 hours ago, by the backend's provider, whose email address the ACL allows. Conversely the cookie of such a login is honoured.", "quantifier": "all byte strings, peers, configurations that Check accepts, histories of issued tokens, requests, tokens and times", "why_tests_cant": "Each check is tested in isolation with its own fixture; no test can enumerate all byte strings, configurations and token histories, and a gap between two layers is invisible to tests of either layer.", "anchors": ["proxy/proxy.go:1119-1216", "proxy/quic.go:72-230", "proxy/backend-http.go:78-355", "proxy/backend-sso.go:89-345", "proxy/internal/cookiemanager/cookiemanager.go:193-246"]}
{"id": "C127", "title": "Certificates are asked of the certificate manager only for names the proxy serves", "statement": "In every history of configurations in force, connections and requests for client certificates, the certificate manager (ACME) is asked for a certificate only for a name for which a backend of the configuration terminates TLS, only while the terms of service are accepted, only if no certificate is configured for the name, and only on behalf of a client that the backend admits.", "quantifier": "all configurations, sequences of reloads, arrivals (TCP and QUIC), handshakes and requests for client certificates", "why_tests_cant": "autocert has no host policy: a single path that forgets a check lets anybody trigger certificate orders (rate limits, transparency logs) for arbitrary names; tests use a fake certificate manager that never objects.", "anchors": ["proxy/proxy.go:203-214", "proxy/proxy.go:641-659", "proxy/proxy.go:1032-1103", "proxy/quic.go:72-84"]}
{"id": "C128", "title": "What the local certificate authority signs can be verified", "statement": "There is one CA key over all restarts and failures: every CA certificate is for it and every certificate is signed with it. Every revocation list and OCSP answer is signed with the key of the delegate certificate that comes with it. That certificate and the CA certificate are valid at the time. The CA key is in memory only while it is needed.", "quantifier": "all interleavings of starts, requests for certificates, lists and OCSP answers, with storage and signing failures at any point, at any times", "why_tests_cant": "Tests start one CA and ask for a list and an answer once. They do not renew certificates, restart, or let storage fail between the renewal and the next request.", "anchors": ["proxy/internal/pki/pki.go:224-316", "proxy/internal/pki/pki.go:387-455", "proxy/internal/pki/pki.go:476-676", "proxy/internal/pki/pki.go:772-821"]}
{"id": "C129", "title": "Other sites can do nothing in the passkey ceremonies", "statement": "A request without method POST or without the header x-csrf-check: 1 runs no step of any passkey ceremony on either page (no challenge, no key, no deletion, no login), and gets no answer that logs the browser in or out. In any history such requests leave accounts, keys and challenges as they are without them. Pages with buttons cannot be framed.", "quantifier": "all sites, states, handlers and requests; all histories of requests", "why_tests_cant": "The tests send the header everywhere. A mode whose guard is forgotten, or that acts before its guard, works just as well in the tests and in browsers.", "anchors": ["proxy/internal/passkeys/manager.go:258-494", "proxy/internal/passkeys/manager.go:512-660"]}
{"id": "C130", "title": "What the passkey pages answer is true", "statement": "A browser gets a login cookie for some claims, and the page to go to, exactly if a login or a first registration for these claims was accepted, and the page is that of its URL token. It is asked to refresh the identity exactly if the passkey was accepted and the identity is too old. A new key is confirmed exactly if it is stored, a deletion only if the key is gone. No request makes the handlers use a login that is missing.", "quantifier": "all sites, states, requests and storage failures", "why_tests_cant": "The handlers turn the result of the ceremony into an answer in eight places with several error returns each; tests check the successful ones with storage that works.", "anchors": ["proxy/internal/passkeys/manager.go:258-494", "proxy/internal/passkeys/manager.go:512-660", "proxy/internal/passkeys/manager.go:746-776"]}
{"id": "C131", "title": "The page for managing passkeys can be reached", "statement": "A browser that asks for the page on any host of the proxy is redirected to the host of the endpoint at most once; there it gets the page (or is asked to log in).", "quantifier": "all endpoints, canonical forms of host names, ports, hosts and requests", "why_tests_cant": "The tests use an endpoint that is written as browsers write it, and never follow the redirect as a browser does.", "anchors": ["proxy/internal/passkeys/manager.go:512-534"]}
{"id": "C132", "title": "Allowed users can register a passkey and log in with it", "statement": "Logged-in users get registration options with the name of the site and exactly their registered keys, users at the login page get options with exactly the keys of the name they entered. A challenge stays until it is answered or five minutes old. An allowed user without keys whose browser answers the options as it should is registered and logged in; a user with a registered key who answers the challenge is logged in and sent to the page they wanted. Keys are registered in these cases only.", "quantifier": "all sites, states, requests, browsers' answers, and steps in between", "why_tests_cant": "Safety tests do not notice a ceremony that can never succeed for some configurations; the fake browser of the tests does not take the site name from the options.", "anchors": ["proxy/internal/passkeys/manager.go:258-494", "proxy/internal/passkeys/manager.go:778-954", "proxy/internal/passkeys/manager.go:956-1044"]}
{"id": "C133", "title": "Backend servers get the configured headers, and the client's other headers unchanged", "statement": "Every forwarded request carries each header configured for the backend, or for the path override it is subject to, with the configured value alone, whatever the client sent, and not at all if that value is empty; hop-by-hop headers of the client are never forwarded; every header that is neither configured, nor set by the proxy, nor hop-by-hop is forwarded as received.", "quantifier": "every request, configuration and set of client headers", "why_tests_cant": "All header names and values in all combinations with the configuration and the Connection header.", "anchors": ["proxy/backend-http.go:Backend.reverseProxy", "proxy/backend-http.go:Backend.reverseProxyDirector"]}
{"id": "C134", "title": "Variables in configured headers mean what is documented", "statement": "A configured header value is expanded once, piece by piece: text stays, a reference to a documented variable becomes that variable's value, other references become empty, and values are not expanded again. A header configured as ${JWT:email} is absent or the email address of the identity that the request proves, and setUserIdHeader is equivalent to such a header.", "quantifier": "every header value, connection, set of claims and request", "why_tests_cant": "All templates and claim values, among them claims that look like references.", "anchors": ["proxy/backend-http.go:expandVars", "proxy/backend-http.go:addr2ip", "proxy/backend-sso.go:claimsFromCtx", "proxy/config.go:PathOverride"]}
{"id": "C135", "title": "The backend server is told the host that the request is for", "statement": "The Host that a backend server receives with a forwarded request is the configured one or, without one, the host that the request was accepted for.", "quantifier": "every forwarded request and configuration", "why_tests_cant": "Only requests without a Host header show the difference.", "anchors": ["proxy/backend-http.go:Backend.reverseProxy"]}
{"id": "C136", "title": "Connections and requests are forwarded no faster than the rate limit", "statement": "The limiter of a backend lets through at most limit + limit*w/1e9 connections and requests in any w nanoseconds, where the limit is forwardRateLimit or 5 if that is not set, and every connection and every HTTP request that is forwarded has been let through by it.", "quantifier": "for all limits, all sequences of connections and requests in order of time, all intervals", "why_tests_cant": "Needs arbitrary long histories of many clients; a test with a few requests does not reach the limit, and the limiter counts connections, so a test with one request per connection sees what it expects.", "anchors": ["proxy/config.go:339-342", "proxy/config.go:1124-1127", "proxy/backend-http.go:240-251", "proxy/proxy.go:1289-1331", "proxy/quic.go:187-193", "proxy/quic.go:598-603", "proxy/http.go:50-52", "proxy/util.go:56-75"]}
{"id": "C137", "title": "Nobody waits for a client or a server while holding a lock, and locks never deadlock", "statement": "Whatever any number of goroutines call, in whatever order their steps are made, and whichever clients and servers never answer: each goroutine that is not done either waits for a peer and holds no lock, or some goroutine can go on by itself. Each goroutine makes a bounded number of steps, so everything that needs no peer ends.", "quantifier": "for all numbers of goroutines, all sequences of calls, all interleavings, all peers that do not answer", "why_tests_cant": "Deadlocks and stalls need a particular interleaving together with a peer that does not answer; tests have peers that do.", "anchors": ["proxy/proxy.go:Proxy.Reconfigure", "proxy/proxy.go:Proxy.Stop", "proxy/proxy.go:Proxy.Shutdown", "proxy/metrics.go:Proxy.metricsHandler", "proxy/quic.go:74-85", "proxy/internal/sshca/sshca.go:258-343", "proxy/internal/pki/http.go:77-101", "proxy/internal/pki/http.go:187-342", "proxy/internal/oidc/client.go:109-132"]}
{"id": "C138", "title": "Clients do not write the log", "statement": "Each message that is logged about a request or a connection is one line without control characters, whatever path, query, user agent, server name, protocol or reason the client sends; so no client can make the log say that something happened that did not.", "quantifier": "all request targets that net/http accepts, user agents, server names, protocols and reasons; all messages about requests and connections", "why_tests_cant": "a test sends the odd character and looks at one message; there are about twenty formats and each shows other pieces", "anchors": ["proxy/backend-http.go:67-190", "proxy/backend-http.go:523-544", "proxy/backend-sso.go:280-340", "proxy/http.go:104-119", "proxy/proxy.go:1432-1487", "proxy/quic.go:72-84", "proxy/quic.go:155-208"]}
{"id": "C139", "title": "What clients make the proxy remember is bounded", "statement": "Events and metrics are kept for the names of the configuration only, whatever names clients ask for, and each event is counted as often as it was recorded. Authorization codes, access tokens, challenges and logins that have begun are forgotten when they expire: never more are kept than were begun within their lifetime.", "quantifier": "all sequences of connections with any first messages and configurations; all interleavings of logins, callbacks and authorizations at any times", "why_tests_cant": "a test begins a few logins and ends them. Nothing fails when an entry stays; the memory runs out after days, or when somebody asks for logins in a loop", "anchors": ["proxy/metrics.go:59-98", "proxy/proxy.go:1120-1186", "proxy/internal/oidc/client.go:149-226", "proxy/internal/oidc/server.go:225-336", "proxy/internal/saml/saml.go:108-205", "proxy/internal/passkeys/manager.go:210-285"]}
{"id": "C140", "title": "Backend servers get the request that the client sent", "statement": "Method, query and body of a forwarded request are those of the client's. Its path is read by the server as the client wrote it, or in canonical form where that is configured (the default); then no segment of it is '.' or '..' either before or after decoding, so that it has one meaning only. If nothing has to be changed, the target is the same byte for byte.", "quantifier": "all request targets, methods and bodies with or without an announced length; all backends, path overrides and settings of sanitizePath", "why_tests_cant": "tests send a few paths and POST requests; the bytes on the wire depend on two fields of the URL that the proxy changes independently, and on how the client frames the body", "anchors": ["proxy/backend-http.go:108-120", "proxy/backend-http.go:205-355"]}
{"id": "C141", "title": "Clients that do not say what they want are disconnected in time", "statement": "Within 60 s of Accept the ClientHello has arrived or the connection is closed, within 180 s it is served or closed, and an HTTP connection is closed after at most 60 s of waiting per request. A client that sends its first record within 30 s, or requests within 30 s, is never disconnected for being slow.", "quantifier": "all arrival times of every byte, all contents, all lengths of PROXY headers, all requests and all durations of the handshake", "why_tests_cant": "tests use clients that are fast or silent; clients in between choose when each byte arrives, and real time limits are too long to wait for in tests", "anchors": ["proxy/internal/netw/netw.go:183-199", "proxy/hello.go:43-64", "proxy/proxy.go:1120-1288", "proxy/http.go:39-56"]}
{"id": "C142", "title": "Revocation lists and OCSP answers can be verified", "statement": "Every revocation list and every OCSP answer is signed with the key of the delegate certificate that comes with it, although parsed certificates are kept in memory while their keys are read from the file.", "quantifier": "all sequences of rotations, lists, answers, other updates and restarts, with any of the writes failing; decoders that reuse objects and decoders that do not", "why_tests_cant": "tests never fail a write between two reads of the file, and the parsed certificate only differs from the stored one after that", "anchors": ["proxy/internal/pki/pki.go:167-222", "proxy/internal/pki/pki.go:387-455", "proxy/internal/pki/pki.go:476-569", "proxy/internal/pki/pki.go:583-676"]}
{"id": "C143", "title": "No data races", "statement": "Data that several goroutines use, and that changes after they can see it, is read and written under the lock that protects it, so that no two goroutines can be about to use the same data at the same time with one of them writing it.", "quantifier": "any number of goroutines, any sequences of calls of every function that uses such data, any interleaving", "why_tests_cant": "the race detector sees the accesses of the runs it is given; reloads, shutdowns and renewals of the PKI hardly overlap with requests in tests", "anchors": ["proxy/proxy.go:113-138", "proxy/logging.go:38-57", "proxy/proxy.go:1154", "proxy/proxy.go:857-860", "proxy/proxy.go:980", "proxy/backend.go:55-81", "proxy/quic.go:210", "proxy/backend-http.go:398", "proxy/internal/pki/pki.go:387-404", "proxy/internal/tokenmanager/tokenmanager.go:163-189"]}
{"id": "C144", "title": "Another site can change nothing with a user's browser", "statement": "A page of another site that a user visits, whatever requests it makes their browser send, with the cookies of the user or without, does not issue or revoke a certificate, register or remove a passkey, sign a SSH key, open a WebSocket or end the session.", "quantifier": "any page of any other origin, any request that a browser lets it make (links, forms, fetch with or without CORS, WebSockets), any state of the browser and of the server", "why_tests_cant": "tests send requests with the headers that the page sends; which requests a browser sends for other sites, and what its service worker adds to them, is no part of them", "anchors": ["proxy/internal/pki/http.go:340-460", "proxy/internal/sshca/sshca.go:262-340", "proxy/internal/passkeys/manager.go:360-620", "proxy/backend-sso.go:222-237", "proxy/websocket.go:40-90", "proxy/internal/pki/sw.js:44-85"]}
{"id": "C145", "title": "A downloaded key belongs to its certificate and is then forgotten", "statement": "What a user downloads after having made a key on the certificate page is protected with the password of that form, is in the format of that form, and holds the key of the request that was sent for it, hence that of the certificate; no key is used twice; the names of the request are those of the form; and when the server has answered, key and password are no longer in the memory of the browser.", "quantifier": "any sequence of forms, answers of the server, and restarts of the service worker, in any interleaving", "why_tests_cant": "tests make one key at a time and answer with a valid certificate; overlapping forms, refusals and odd formats are not tested", "anchors": ["proxy/internal/pki/clientwasm/impl/impl.go:54-129", "proxy/internal/pki/clientwasm/main.go:54-107", "proxy/internal/pki/keys/keys.go:37-74", "proxy/internal/pki/sw.js:44-85", "proxy/internal/pki/certs.html:86-109"]}
{"id": "C146", "title": "Only a certificate authority can vouch for its certificates", "statement": "An OCSP answer about a certificate, whether fetched by the proxy, stapled by a client or a backend server, or stapled by a server for the command line client with -ocsp, is believed only if it is about this certificate, has not expired, and is signed by the issuer or by a key that the issuer has appointed for this; so nobody can have a certificate accepted that its issuer has revoked.", "quantifier": "any certificates and keys, any chains that a peer sends, any stapled or fetched answers, any state of the cache", "why_tests_cant": "tests sign answers with the key of the CA; answers signed with the key of the very certificate, or of another one, are not tried", "anchors": ["proxy/internal/ocspcache/ocsp.go:134-145", "proxy/internal/ocspcache/ocsp.go:225-252", "proxy/proxy.go:608-613", "proxy/backend.go:124-128", "tlsclient/main.go:111-137"]}
{"id": "C147", "title": "Clients get the answers that backend servers have sent", "statement": "A client gets the status, the end-to-end headers and the body that the backend server has sent; the proxy adds Strict-Transport-Security and Alt-Svc where the server has not set them. An answer that looks complete to the client is complete: if the connection to the server breaks in the middle of an answer, the client notices.", "quantifier": "all answers with or without an announced length, arriving in full or in part; all headers, methods and protocols of backend servers; all encodings", "why_tests_cant": "tests use servers that answer in full; where a connection breaks, what is announced, and which encodings client and server use are too many combinations, and a client that is deceived reports no error", "anchors": ["proxy/backend-http.go:68-74", "proxy/backend-http.go:194-206", "proxy/backend-http.go:472-545"]}
{"id": "C148", "title": "Connections to servers end with their use", "statement": "What a failed dial has opened is closed. What a successful dial has opened is closed when its user closes it. Connections are listed among the outgoing ones exactly while they last.", "quantifier": "all outcomes of all attempts of a dial, any number of addresses; all interleavings of the goroutine that dials, the one that waits for the end, the server and the user", "why_tests_cant": "tests use servers that accept connections and streams; leaked connections do not fail a test, and the window in which a connection has to end is a few instructions wide", "anchors": ["proxy/backend.go:83-190", "proxy/quic.go:466-580", "proxy/internal/netw/quic.go:248-270", "proxy/internal/netw/quic.go:590-594", "proxy/internal/netw/netw.go:232-242"]}
{"id": "C149", "title": "Reloading a configuration has the effect of restarting with it", "statement": "Apart from the addresses and directories that are documented to be fixed, a running proxy that has accepted a new configuration behaves as one that was started with it, whatever was in force or was rejected before.", "quantifier": "all configurations at the start, all histories of accepted and rejected reloads, all configurations that are then accepted", "why_tests_cant": "tests reload once or twice and look at what they changed; differences show in what a configuration no longer says, or in what only the start looks at", "anchors": ["proxy/proxy.go:171-229", "proxy/proxy.go:279-863", "proxy/proxy.go:904-940", "proxy/quic.go:59-99"]}
{"id": "C150", "title": "What caches keep of the proxy's documents is good enough", "statement": "Whatever a shared cache between clients and the proxy delivers is what the proxy would have answered to this very client, not longer ago than the document says; a conditional request is confirmed only if the client's copy is what would be sent now; errors are not kept; nobody is given a document about somebody else; and keys, revocation lists, OCSP answers and certificates from a cache are good enough to verify what is signed now.", "quantifier": "all documents, all histories of requests through the cache, all changes of the proxy's state with time, all rotations of keys and delegates", "why_tests_cant": "tests look at one header of one reply; what is wrong shows when a copy of one moment meets a signature, a user or an error of another", "anchors": ["proxy/backend-sso.go:147-202", "proxy/internal/passkeys/manager.go:181-208", "proxy/internal/tokenmanager/tokenmanager.go:452-508", "proxy/internal/pki/http.go:76-185", "proxy/internal/pki/http.go:478-540", "proxy/internal/sshca/sshca.go:243-343", "proxy/internal/oidc/server.go:205-223"]}
{"id": "C151", "title": "The proxy follows its files", "statement": "The configuration in force is one that was in the file, as a whole, and the certificates that are trusted are those that its files had just after it was read; a file that is missing or not valid changes nothing; a valid configuration whose files do not change is in force after the time between two rounds and that of one; and a certificate authority that is taken out of its file is no longer trusted then.", "quantifier": "all histories of all files, all sequences of rounds of the loop, all configurations", "why_tests_cant": "a test changes one file once and waits; what is wrong shows when another file is the one that changes", "anchors": ["main.go:129-145", "proxy/config.go:1191-1208", "proxy/proxy.go:279-295", "proxy/proxy.go:1502-1516", "proxy/internal/saml/saml.go:263-283"]}
{"id": "C152", "title": "What the parties of a login tell each other arrives", "statement": "Identity providers find in the URLs and forms of the proxy exactly what it was configured with and has made for the login, whatever characters there are in it; clients of the local OpenID server find the code and exactly the state that they have sent; parameters that a configured URL has of its own are kept; and the XML of a SAML request says who asks, for which login and where the answer is to be sent.", "quantifier": "all configured names, secrets, scopes, hints and URLs, all states and codes; all texts that XML can express", "why_tests_cant": "tests use names without special characters and URLs without queries; what is wrong shows only with others", "anchors": ["proxy/internal/oidc/client.go:178-199", "proxy/internal/oidc/client.go:228-237", "proxy/internal/oidc/server.go:225-335", "proxy/internal/saml/saml.go:126-152", "proxy/internal/saml/saml.go:307-350", "proxy/internal/passkeys/manager.go:249-255", "proxy/internal/passkeys/manager.go:279-284", "proxy/internal/passkeys/manager.go:426-440"]}
{"id": "C153", "title": "What is said about connections is true", "statement": "However connections are wrapped, the notes about a connection are found and looking for them never ends a handler; what the log says about a connection are the address of the client, the name, protocol, mode and certificate that it was admitted with and the connection to the server that its data goes to; and the page with metrics shows for each stream the server that it is bridged to.", "quantifier": "all layers of connections that handlers have, with and without load balancers, all interleavings of admissions, streams, dials and upgrades of any number of connections", "why_tests_cant": "tests look at single connections with one stream; that lines belong to other streams shows only with several ones, in the right order", "anchors": ["proxy/util.go:39-193", "proxy/proxy.go:1446-1500", "proxy/backend.go:173-187", "proxy/quic.go:358-464", "proxy/internal/netw/quic.go:286-332", "proxy/metrics.go:292-360"]}
{"id": "C154", "title": "A token is accepted exactly when one of the keys has signed it with its own algorithm", "statement": "Whatever numbers a signature consists of, also those with leading zeros or a first bit of one, and whoever has made it, the TPM or the library, the tokens that the proxy makes have the form of RFC 7515 and RFC 7518 and are accepted with the claims that they were made with; and no other text is accepted: not with another algorithm than that of the key, with none, with a key that the proxy does not have, or with a signature of another length.", "quantifier": "all keys, claims, signatures and texts of tokens", "why_tests_cant": "one signature in 128 has a leading zero, and tests without a TPM do not run the code at all; what is accepted is about all texts", "anchors": ["proxy/internal/tokenmanager/tokenmanager.go:331-432"]}
{"id": "C155", "title": "What the documentation calls the same is the same", "statement": "A client whose address is blocked gets what it would get if no backend had the server name (config.go:241-242); a backend in mode LOCAL is accepted and answers exactly like the same one in mode HTTP or HTTPS without addresses (config.go:302-305); the streams of a QUIC connection to a backend in mode TCP or TLS are treated like so many TLS connections, also by the rate limit (config.go:316-317).", "quantifier": "all configurations, clients, requests and sequences of connections and streams", "why_tests_cant": "each sentence compares two configurations or two clients in every situation; tests look at one of them at a time", "anchors": ["proxy/proxy.go:Proxy.handleConnection", "proxy/proxy.go:Proxy.checkIP", "proxy/quic.go:Proxy.handleQUICConnection", "proxy/quic.go:Proxy.handleQUICTCPStream", "proxy/backend-http.go:Backend.localHandler", "proxy/backend-http.go:Backend.reverseProxy", "proxy/config.go:Config.Check"]}
{"id": "C156", "title": "Every request leaves its line in the log", "statement": "A request that the proxy answers leaves exactly one line in the log, which tells who it is from, from which address, the method and the status of the answer.", "quantifier": "all configurations, requests, logins, answers of servers and failures", "why_tests_cant": "it is about the paths on which nothing is logged; a test that looks for a line has to know the path beforehand", "anchors": ["proxy/backend-http.go:Backend.reverseProxy", "proxy/backend-http.go:Backend.localHandler", "proxy/backend-http.go:Backend.serveStaticFiles", "proxy/backend-http.go:Backend.redirectPermanently", "proxy/backend-http.go:Backend.reverseProxyModifyResponse", "proxy/backend-http.go:Backend.logPanic", "proxy/backend-sso.go:Backend.enforceSSOPolicy", "proxy/backend-sso.go:Backend.checkCookies", "proxy/http.go:logHandler", "proxy/proxy.go:formatReqDesc"]}
{"id": "C157", "title": "Secrets stay out of the log", "statement": "What is logged about a request depends on its method, path, User-Agent, connection and user only: two requests that differ in cookies, credentials, parameters or body leave the same lines if they take the same way.", "quantifier": "all pairs of requests, configurations, tokens and sessions", "why_tests_cant": "noninterference is about two runs at a time, for every pair of secrets", "anchors": ["proxy/backend-http.go:Backend.reverseProxy", "proxy/backend-http.go:Backend.serveStaticFiles", "proxy/backend-http.go:Backend.reverseProxyModifyResponse", "proxy/backend-sso.go:Backend.enforceSSOPolicy", "proxy/http.go:logHandler", "proxy/http.go:userAgent", "proxy/proxy.go:formatReqDesc", "proxy/internal/tokenmanager/urltoken.go:TokenManager.ValidateURLToken"]}
{"id": "C158", "title": "What is left out of the configuration means what is documented", "statement": "Writing the documented default of a setting has the same effect as leaving the setting out, for any choice of settings at a time; and what is written takes effect as it is written.", "quantifier": "all configurations, modes, sets of settings that are left out, requests and path overrides", "why_tests_cant": "it compares two configurations for each of the sets of settings that can be left out", "anchors": ["proxy/config.go:Config.Check", "proxy/config.go:validateProxyProtoVersion", "proxy/backend.go:Backend.bridgeConns", "proxy/backend.go:Backend.dial", "proxy/backend-http.go:Backend.reverseProxy", "proxy/backend-http.go:Backend.reverseProxyTransport", "proxy/revoke.go:Proxy.revokeUnusedCertificates", "proxy/internal/oidc/client.go:ProviderClient.RequestLogin"]}
{"id": "C159", "title": "Bandwidth limits are kept and can be used", "statement": "In any period, all connections that share a bandwidth limit together transfer in each direction no more than the burst and what the limit allows for the period; and nobody waits who transfers less.", "quantifier": "all limits, histories of reads and writes of any number of connections, and periods", "why_tests_cant": "it is about all interleavings of any number of connections, and all periods", "anchors": ["proxy/internal/netw/netw.go:Conn.Read", "proxy/internal/netw/netw.go:Conn.Write", "proxy/internal/netw/netw.go:Conn.SetLimiters", "proxy/internal/netw/quic.go:QUICStream.Read", "proxy/internal/netw/quic.go:QUICStream.Write", "proxy/proxy.go:Proxy.Reconfigure", "proxy/config.go:BWLimit"]}
{"id": "C160", "title": "Numbers that are accepted leave a proxy that serves somebody", "statement": "Every configuration that is accepted, whatever numbers are in it, forwards requests on each of its paths: those that find room, whose user has logged in recently enough, and whose server can be reached within the timeout.", "quantifier": "all numbers, limits of open files, paths, and times of logins and requests", "why_tests_cant": "the numbers are unbounded, and the claim that nobody is ever served is about all clients and all sequences of logins", "anchors": ["proxy/config.go:Config.Check", "proxy/unix.go:openFileLimit", "proxy/proxy.go:Proxy.handleConnection", "proxy/proxy.go:Proxy.handleHTTPConnection", "proxy/backend-sso.go:Backend.enforceSSOPolicy", "proxy/backend.go:Backend.dial", "proxy/internal/cookiemanager/cookiemanager.go:CookieManager.SetAuthTokenCookie"]}
{"id": "C161", "title": "A registered passkey can be used, and only with signatures of its own key", "statement": "A user who has registered a passkey, with any of the algorithms that were offered to the authenticator, can log in with exactly the signatures that this key has made over the authenticator data and the client data at hand, and a signature stands for no other data.", "quantifier": "all public keys however they are encoded, authenticator data, client data, signatures and sets of registered keys; any curve, hash and signature functions", "why_tests_cant": "the tests encode keys with the same structure that the code decodes them with, so a disagreement with the standard cannot show; and that no signature whatever is accepted for a key is a claim about all signatures", "anchors": ["proxy/internal/passkeys/webauthn.go:verifySignature", "proxy/internal/passkeys/webauthn.go:signedBytes", "proxy/internal/passkeys/webauthn.go:newAttestationOptions", "proxy/internal/passkeys/manager.go:Manager.processAttestation", "proxy/internal/passkeys/manager.go:Manager.processAssertion"]}
{"id": "C162", "title": "Clients of the local OpenID Connect server that follow the discovery document get what they are told", "statement": "A registered client that does what the discovery document and the standards say exchanges its code for tokens within two minutes of the login, and can use the access token for as long as the answer says, whatever other users and clients do at the same time.", "quantifier": "all clients, users, times, and sequences of requests of others in between; all ways in which the standards let a client with a secret send its requests", "why_tests_cant": "the tests send requests in the one way that the server reads, right after the login and once; that another way never works, and that the promised life of a token cannot be relied on, is a claim about all requests and times", "anchors": ["proxy/internal/oidc/server.go:ProviderServer.ServeConfig", "proxy/internal/oidc/server.go:ProviderServer.ServeToken", "proxy/internal/oidc/server.go:ProviderServer.ServeUserInfo", "proxy/internal/oidc/server.go:ProviderServer.vacuum"]}
{"id": "C163", "title": "When the proxy has stopped, nothing is relayed any more and every handler ends", "statement": "From the moment when Stop has returned, no open TCP connection is connected to a server, none is accepted, and the handler of each one that is left ends after at most seven of its own steps with the connection closed and removed from the list, however far the connections had got when Stop began and however the steps of their handlers and of Stop are interleaved.", "quantifier": "all sequences of incoming connections, steps of handlers with any outcome, and steps of Stop", "why_tests_cant": "a connection that is accepted but not yet in the list when the list is taken is missed by Stop; that the cancelled context catches exactly those is a claim about all interleavings, and a test meets such a window only by chance", "anchors": ["proxy/proxy.go:Proxy.Stop", "proxy/proxy.go:Proxy.acceptLoop", "proxy/proxy.go:Proxy.handleConnection", "proxy/internal/netw/netw.go:Conn.Close"]}
{"id": "C164", "title": "Certificate authorities work with every documented key type, and keep their keys", "statement": "A local certificate authority can be created with a key of any of the documented types, for SSH or for client certificates; its key is never replaced, whatever the configuration says later; starts that fail store nothing; and every OCSP request can be answered without storing more than one certificate for signing per period.", "quantifier": "all documented key types, spellings that are accepted, TPMs, and sequences of restarts and OCSP requests", "why_tests_cant": "the tests create an authority of each type once and without a TPM; that the key survives every sequence of restarts and changes of the configuration, and that no request ever is answered for some spelling, are claims about all sequences", "anchors": ["proxy/internal/sshca/sshca.go:SSHCA.initCA", "proxy/internal/sshca/sshca.go:SSHCA.generateKey", "proxy/internal/pki/pki.go:PKIManager.initCA", "proxy/internal/pki/pki.go:PKIManager.generateKey", "proxy/internal/pki/pki.go:PKIManager.maybeRotateDelegateCert"]}
{"id": "C165", "title": "The plain HTTP port gives away nothing but answers to challenges and redirects, and cannot be used up", "statement": "On the port for plain HTTP, only answers to ACME challenges are given, and all other requests are redirected to the same host, path and query over TLS, or refused; nothing else in the cache of the certificate manager, such as private keys, has any influence on the answers; and clients that send nothing are disconnected, and are limited in number.", "quantifier": "all requests, contents of the cache, numbers of connections, and times", "why_tests_cant": "no test opens this port; that no path whatever reads a private key out of the cache that has the tokens, and that silent connections are held for ever, are claims about all requests and all times", "anchors": ["proxy/proxy.go:Proxy.Start", "proxy/http.go:serveHTTP", "proxy/proxy.go:Proxy.ctxWait"]}
{"id": "C166", "title": "The login page says where a user is and where they go", "statement": "The page that asks a user to log in links to what was asked for, shows its address with the name of the host in a form that can be read, and names a provider on its button if and only if this is where the login leads.", "quantifier": "all hosts, ports, paths, configurations of providers, and discovery documents", "why_tests_cant": "the tests look for the token on the page and never at the link, the text or the button, and use neither ports, nor international names, nor known providers; the claims are about all of them", "anchors": ["proxy/internal/tokenmanager/urltoken.go:TokenManager.URLToken", "proxy/proxy.go:guessIDP", "proxy/backend-sso.go:Backend.enforceSSOPolicy", "proxy/internal/oidc/client.go:New", "proxy/login-template.html"]}
{"id": "C167", "title": "Byte strings of passkeys arrive as they were sent", "statement": "Challenges, handles and identifiers that the server sends to the pages for passkeys are arrays of JSON with exactly their bytes; what the authenticator makes arrives at the server byte by byte; what is stored is read back; and whatever a client sends, the server gets bytes or refuses.", "quantifier": "all byte strings of any length, and all texts that clients can send", "why_tests_cant": "the tests send a few challenges of 32 random bytes; the encoding is put together from the text that fmt makes for people, and that it is JSON for every byte string, empty ones and ones with zeros included, is a claim about all of them", "anchors": ["proxy/internal/passkeys/webauthn.go:Bytes.MarshalJSON", "proxy/internal/passkeys/webauthn.js", "proxy/internal/passkeys/manager.go:Manager.processAttestation", "proxy/internal/passkeys/manager.go:Manager.processAssertion"]}
{"id": "C168", "title": "The page with metrics counts every connection under its name", "statement": "The page with metrics has one row for each server name that connections were accepted for, with the number of these connections and the sum of the bytes that they have sent and received, also when several connections are the first for a name at the same time. Sizes above 1000 bytes are shown with an error of at most 5 %, smaller ones are cut to whole bytes, and a larger size is never shown as a smaller one, whatever the units.", "quantifier": "all interleavings of arriving, registering and transferring connections, for any number of names and connections; all sizes", "why_tests_cant": "the map is checked under a lock for reading and filled under another lock, so that the loss of an entry needs two connections in between; the tests open one connection after the other, and look at no size near a change of units", "anchors": ["proxy/metrics.go:Proxy.setCounters", "proxy/metrics.go:Proxy.metricsHandler", "proxy/util.go:formatSize10", "proxy/internal/netw/netw.go:Conn.SetCounters", "proxy/internal/netw/netw.go:Conn.Read", "proxy/internal/netw/netw.go:Conn.Write"]}
{"id": "C169", "title": "Who may register passkeys", "statement": "A user may register a passkey with a provider exactly when the access list of the backend with the provider's endpoint allows it, by the same rule as for requests: the address is listed, or its domain.", "quantifier": "all configurations of providers and backends, all orders in which Go goes through the map of providers, all addresses", "why_tests_cant": "the list is handed to the manager while the callbacks of all providers are registered, in the order of a map, which is random; the tests have one provider on one backend, where nothing depends on the order", "anchors": ["proxy/proxy.go:Proxy.Reconfigure", "proxy/internal/passkeys/manager.go:Manager.SetACL", "proxy/internal/passkeys/manager.go:Manager.subjectIsAllowed", "proxy/internal/passkeys/manager.go:Manager.HandleCallback"]}
{"id": "C170", "title": "The loops that accept connections go on after errors, and wait", "statement": "Each connection that the listener returns gets a handler, whatever errors came before; the loops end when the listener is closed and only then; after an error they wait before they try again, so that the number of log lines is bounded by the time that has passed.", "quantifier": "all sequences of answers of the listener, all durations of its calls, all numbers of rounds", "why_tests_cant": "the tests never run out of file descriptors nor break the UDP socket, so Accept never fails but at the end", "anchors": ["proxy/proxy.go:Proxy.acceptLoop", "proxy/quic.go:Proxy.quicAcceptLoop"]}
{"id": "C171", "title": "The files of the certificate authority hold exactly what they should", "statement": "The PEM file of the authority is its certificate followed by those of its delegates, in blocks by RFC 7468; that of the revocation list is the certificate it is signed with and the list; each file can be read in one way only, whatever the bytes. The file in DER form is a single certificate, as RFC 5280 asks of the address in certificates.", "quantifier": "all certificates and lists (any bytes, any lengths), any number of delegates, all ways in which the base64 encoder cuts its text into pieces", "why_tests_cant": "the tests read a few files of fixed sizes with the same library; that no bytes are lost at the ends of lines and blocks, and that no other reading exists, is a claim about all lengths; no test reads the DER file as a client of the address in certificates does", "anchors": ["proxy/internal/pki/pki.go:PKIManager.RevocationListPEM", "proxy/internal/pki/pki.go:certificate.pem", "proxy/internal/pki/http.go:PKIManager.ServeCACert", "proxy/internal/pki/http.go:PKIManager.ServeCRL"]}
{"id": "C172", "title": "What was written in PEM form is read back as it was", "statement": "Keys, certificates and requests that are written with pem.Encode are read back by the loops around pem.Decode: all blocks, in their order, with their labels and bytes, and nothing else.", "quantifier": "all lists of blocks, all bytes of all lengths (also none), all labels without hyphens, colons and line breaks, all ways in which the encoder cuts its text", "why_tests_cant": "the tests read a few files; that no length of a key or a certificate makes the reader stop early, take a line for a header or lose the next block is a claim about all of them", "anchors": ["certmanager/certmanager.go:readRootKeyAndCert", "certmanager/certmanager.go:saveRootKeyAndCert", "proxy/revoke.go:Proxy.acmeAllCerts", "proxy/internal/pki/http.go:PKIManager.handleRequestCert"]}
{"id": "C173", "title": "Certificates are issued for keys whose holders asked for them", "statement": "A certificate is issued only upon a request that the holder of its key has signed, to someone who is logged in, with their address and no other; and only to the user for whom the request was made. The requests that the page in the browser makes are understood.", "quantifier": "all bodies (any text, any number of blocks and labels), all requests and keys, all users, any way to check signatures that cannot be forged", "why_tests_cant": "the tests issue certificates for requests they have just made; that no other body leads to a certificate, and what someone else can do with a request, they do not ask", "anchors": ["proxy/internal/pki/http.go:PKIManager.handleRequestCert", "proxy/internal/pki/pki.go:PKIManager.ValidateCertificateRequest", "proxy/internal/pki/clientwasm/impl/impl.go:MakeCSR"]}
