# Formal model of tlsproxy in Lean 4

This directory holds a Lean 4 model of the decision and state logic of
`c2FmZQ/tlsproxy` (Go, read as text from `/repo`), and machine-checked proofs of
the properties listed in `properties.jsonl`.

## Layout

* `lean/Verif/Model/*.lean`  - the model, one file per area of the Go code. Every
  definition cites the Go file and lines it transcribes, and says what was
  simplified.
* `lean/Verif/Lemmas/*.lean` - helper lemmas (no claims of their own).
* `lean/Verif/Props/*.lean`  - for each property: a small specification that does
  not use the model's helpers, the theorem(s), and concrete `example`s showing
  that the hypotheses are satisfiable and the statement is not vacuous.
* `MANIFEST.json` - property -> theorem names and status.
* `seeded/LOG.jsonl` - log of deliberate model bugs and which theorem caught each.

Conventions: Go `error` returns become `Except`/`Option`/an outcome type; nil is an
explicit case; panics are an explicit outcome (never a totalised default); maps
become association lists or functions with the same lookup semantics; goroutines
and locks become interleaved atomic steps of a state machine; time is a `Nat`/`Int`
that each step receives as input; cryptography, IDNA, URL parsing, regular
expressions and storage are parameters whose assumptions are hypotheses of the
theorems that need them.

When the code does not satisfy the property, the property keeps its full
statement here and in `properties.jsonl`; a theorem named `..._violated` proves the
negation on a concrete reachable witness and a theorem named `..._partial` proves
the strongest version that does hold. The disagreement is recorded below.

## Plan per property

| id | what is modelled | how it is proved |
|----|------------------|------------------|
| C01 | `peekClientHello` on a byte stream, cryptobyte readers | separate encoder for RFC 8446 hellos; round-trip by induction over extensions |
| C02 | same, with an explicit panic outcome | characterise exactly the inputs that panic (zero-length record: violated), bound on bytes looked at |
| C03 | `netw.Conn` Peek/Read state machine over a chunked stream | invariant: delivered ++ buffered ++ unread = sent, induction over operations |
| C04 | map construction in `Reconfigure`, `Proxy.backend` | refinement to a declarative "first backend in config" specification |
| C05 | uniqueness loop of `Config.Check` | invariant of the fold; permutation invariance of lookup |
| C06 | `handleConnection` as a function to a trace of effects | case analysis |
| C07 | `Backend.checkIP` | decision logic |
| C08 | `handleConnection` + handlers as trace of effects | trace property: every dial/handler event is preceded by the checks |
| C09 | connTracker + limit check as interleaved steps | invariant by induction; usability direction violated (at most MaxOpen-1) |
| C10 | `Conn.Close`/`OnClose` steps | invariant over interleavings |
| C11 | `Backend.authorize` | iff with a declarative identity list |
| C12 | `VerifyConnection` + backend lookup | violated for h3-only backends reached over TCP; partial theorem when both lookups agree |
| C13 | `dial` rotation as interleaved steps | invariant + counting over modular arithmetic |
| C14 | `dial` loop | sequential theorem; violated under concurrency |
| C15 | `close`/`incInFlight`/`backend` state machine | invariant over interleavings |
| C16 | Shutdown waiter / closer steps with condition variable | safety invariant; termination violated (lost wake-up) |
| C17 | `bridgeConns`/`forward` two-direction state machine | prefix invariant by induction over steps |
| C18 | `dial` output stream | trace theorem |
| C19 | `Reconfigure` as sequence of effects with failure points | routing unchanged; limits violated |
| C20 | `bwLimits` map and lookup | violated for upper-case names; partial for lower-case distinct names, over histories |
| C21 | `reAuthorize` with explicit panic | violated (nil dereference); partial |
| C22 | `path.Clean` on rooted paths + `pathClean` | segments semantics, induction |
| C23 | `serveStaticFiles` over abstract file system | case analysis + path lemmas |
| C24 | `authenticateUser`, `handleLocalEndpointsAndAuthorize`, `enforceSSOPolicy` | decision procedure theorem |
| C25 | `pathMatches` | string prefix reasoning |
| C26 | ACL test | iff |
| C27 | `Config.Check` + mode dispatch | violated for raw modes; partial for HTTP modes |
| C28 | `enforceSSOPolicy` | decision logic |
| C29-C31 | header list operations of authenticateUser, reverseProxy, director, ReverseProxy hop-by-hop removal | C29, C31 invariants; C30 violated (Connection header) |
| C32 | `encodeXFCC`, `encodeXFCCSubject` | decoder round-trip; subject encoding violated ('/' not escaped) |
| C33 | `reverseProxy` host check | decision logic |
| C34 | Via handling | split/join round-trip, induction over chains |
| C35 | cookie filter | violated when path not under policy; partial |
| C36 | hostKey string | injectivity, hash collision-freedom assumed |
| C37 | override loop | violated when backend has no addresses; partial |
| C38 | handler sort and search | sortedness + first match |
| C39 | `reverseProxyModifyResponse` | case analysis |
| C40-C43 | token issuance as a history of signed claims, validators | induction over issuance histories; signatures assumed unforgeable |
| C44-C46 | `rotateKeys`, `CreateToken` | invariants over rotation histories; C45 violated after long downtime |
| C47 | claim map construction | lookup lemmas |
| C48 | ring buffer counter | refinement to a history function; violated when period exceeds history |
| C49 | Conn counters | invariant |
| C50 | redaction | structural |
| C51-C53 | ocspcache | decision logic; C53 violated |
| C54-C55 | OIDC client state machine | invariants over histories |
| C56-C59 | OIDC server state machine | invariants; C58 violated |
| C60 | SAML state machine | invariants; boundary instant violated |
| C61-C66 | passkey manager state machine, webauthn parser | invariants; C64 violated |
| C67-C72 | PKI manager | invariants; C69 violated |
| C73 | SSH CA | decision logic |
| C74 | revocation loop | decision logic; cache removal violated on failure |
| C75 | `shouldLog` | decision logic |
| C76, C77 | string validation | violated; partial |
| C78 | `Config.Check` | decision logic |
| C79-C80 | QUIC wrappers | invariants |
| C81 | websocket loops | invariants |
| C82 | provider map construction | induction |
| C83 | routing | violated (exact match only) |
| C84 | sendAlert | computation for all kinds |
| C85 | QUIC admission | decision logic |
| C86 | incInFlight, close | witness of the leak, decision logic |
| C87 | `OCSPCache.Response`, stapling callback, flush, with an explicit panic outcome | characterise when nil is cached; violated for certificates without OCSP server |
| C88 | `flush`/`load` | round trip |
| C89 | SAML state machine with browsers | violated (no cookie ties answer to browser); partial |
| C90 | `readCerts` with explicit panic | specification of PEM sequences; violated after the last block |
| C91 | passkey histories with refresh interval | invariant; violated for first registration |
| C92, C93 | whole of `Config.Check` | declarative rules, both directions; fixed point |
| C94 | token construction | exact claim-by-claim characterisation |
| C95 | `Reconfigure` on the whole proxy state | iff for acceptance, induction over histories |
| C96 | construction of `localHandlers` for all backends | exact characterisation of the table by a declarative relation; violated for URLs without a path |
| C97 | `SetACL` side effect of `addLocalHandler` | violated; partial |
| C98, C99 | URL tokens, session cookies and passkey nonces as a state machine with several browsers | log invariant; completion by computation on any reachable state; violated (nonce not tied to browser, Host header unchecked) |
| C100-C102 | the proxy's cookies in an RFC 6265 browser | exact characterisation of the login cookies by the history; C101 violated after a change of domain, C102 for overlapping domains |
| C103, C104 | `redirectPermanently` with URL escaping, `http.Redirect` and path cleaning, on top of the handler model | C103: Location computed in closed form, then decoded by a small browser spec; C104: case analysis of the second request; violated (file as document root) |
| C105 | the session and ID-token cookies in the cookie model of C100 | exact characterisation by the history |
| C106 | `ServeOCSP` with `PathUnescape` and base64 decoding | round trip against RFC 4648 encoding by induction over groups; violated for slashes |
| C107 | `RevokeAllCertificates`, `acmeAllCerts` at PEM-block level, any server | induction over the loop with a full postcondition; violated for broken keys |
| C108 | `ServeJWKS` with big-endian bytes of integers and base64url | encoding proved inverse to a declarative reading, uniqueness of the reading; violated for short EC coordinates |
| C109 | `ServeConfig`, issuer, `SplitHostPort`, the endpoint table of C94 | composition with the endpoint table; violated for ports and second server names |
| C110 | `setAltSvc` with `SplitHostPort` and `Atoi` | case analysis over declarative authorities and decimals |
| C111 | `reverseProxy` composed with `reverseProxyTransport`, `dial`, `dialQUICBackend` and HTTP clients that may use any connection with the same key | invariant over histories, injectivity of the pool key; violated for HTTP/3 |
| C112 | the same, with `BackendProto` of backend and overrides | the same invariant |
| C113 | `acceptProxyHeader`, the PROXY wrapper, `peekClientHello` and `handleConnection` put together; the header decoder is a parameter | composition of the exact description of the parser (C15 f.) with the checks before contact; converse for passthrough backends |
| C114 | `getCertFromConfig` and the choice in `baseTLSConfig`, with `path.Match` of the standard library, whose source is not available here and which is transcribed from memory, for ASCII | grammar and meaning of patterns as inductive relations; the greedy matcher is exact for names without slash; first matching entry by induction |
| C115 | what is recorded on a connection in each phase of `handleConnection` and `authorizeTLSConnection`, and `reAuthorize` | the negotiated protocol leads back to the same backend; violated in two ways by concrete accepted configurations |
| C116 | the pools of CAs that `Reconfigure` fills, the settings `dial` and `dialQUICBackend` choose, `VerifyConnection`, and the client side of crypto/tls | exact characterisation of when a connection comes about; with the model of C111 also for requests that reuse connections |
| C117 | the same, with the checks of `Config.Check` on the lists | proved when there is a name; violated otherwise |
| C118 | the reading of the XML document in `HandleCallback`, with what the XML library does for the paths used, and the claims of the login cookie; the signature check is a parameter | elements by position in the document, first in lexicographic order; exact characterisation of login and claims; removal of comments commutes with every query |
| C119 | `bridgeConns`, `forward`, `closeWrite`, `closeRead` for TCP, TLS, QUIC streams and one-way streams, as two interleaved copying loops with peers that send, end, reset, stop and disappear | invariant of one direction over all runs; concrete runs for the violations |
| C120 | the same | invariants relating the end of one direction to closed connections and deadlines; concrete runs for the violations |
| C121 | `handleQUICConnection` in mode QUIC and `handleQUICQUICStream` as one machine with the loops, the wait group and any number of streams | invariant over all runs; characterisation of the quiet states; concrete runs for the violations |
| C122 | the arguments of `bridgeConns` by opener of the stream | case distinction; runs of the model of C119 for the violation |
| C123 | the tickets each listener accepts and what a resumed handshake leaves to the proxy's checks, on top of the dispatch model; crypto/tls resumption from memory | invariant over histories relating tickets to certificates shown before; concrete histories for the violations |
| C124 | `ServeCertificateManagement`, `handleRevokeCert`, `handleDownloadCert`, the template and the script | exact characterisation of the list; agreement with the revocation step of the PKI model; concrete requests for the violations |
| C125 | `httpConnChan`, `proxyListener`, `close`, `incInFlight` and the senders as one machine | invariants over all runs (counting, channel); concrete runs for the violations |
| C126 | `Model/EndToEnd.lean` joins `Front.handle` / `Dispatch.handleQUIC`, `Http.serve` and the token validations of `Token` into one function from bytes and request to answer | composition of `no_contact_before_checks`, `hello_exact`, `routing_partial`, `quic_admission_partial`, `sso_enforced`, `login_cookie_partial`, `bearer_partial`, `misdirected_not_forwarded`; the conclusion speaks about bytes, the configuration and the history of logins only |
| C127 | `Model/Acme.lean`: arrivals, handshakes, client certificate requests and reloads as a state machine with a log of the requests to the certificate manager | invariant over all histories; three witnesses for what is violated |
| C128 | `initCA`, `open` with the wiping of the key, `maybeRotateDelegateCert` (check without the lock, then a critical section), the signing part of `RevocationList`, `OCSPResponse` and `signCertificate`; memory and file are separate; keys are numbers | three invariants over all executions: one CA key and matching pairs (`signatures_verify`, `key_wiped`), dates of delegates and lists (`answers_current_partial`), dates of the CA certificate (`ca_current_partial`); witnesses for what fails after a failed commit |
| C129 | `Model/Ceremony.lean`: both handlers as functions from requests to a plan (answer, or steps of the passkey machine and how the answer follows from them) | case analysis over all plans; induction over histories for the filter statement |
| C130 | the same; whether a ceremony succeeded is what the log of the passkey machine says | a classification of plans (`shape`), the ends of the ceremonies from `Lemmas/Passkey.lean` |
| C131 | the host comparison of `ManageKeys` with Go's `SplitHostPort`; the browser's canonical form of hosts is a parameter | computation with hosts and ports; violation for every non-canonical endpoint |
| C132 | the contents of the options, and the two ceremonies end to end | exact conditions for registrations (`register_iff`) and logins (`login_iff`), and that nothing but an answer, time, or a restart removes a challenge |
| C133 | `Model/Http.lean` `setHeaders`, `removeHop`, with `forward_exact` for the headers of the override in question | values of a header name through every step of header processing |
| C134 | `Model/Expand.lean`: `os.Expand` as a recursion over characters, and the variables | induction over the pieces of a template; congruence of header processing for the equivalence |
| C135 | `Model/Expand.lean` `sentHost`: `req.Host`, or the URL's host if it is empty, as the transports send it | induction over the configured headers; violation for requests without Host |
| C136 | `Model/Rate.lean`: the token bucket in exact arithmetic, and a backend with its connections, the flag of each connection and the times of what is let through and forwarded | invariant: the tokens bound the number of reservations since any time; invariant: forwarded things plus connections without a request are at most what was let through; violations for any number of requests |
| C137 | `Model/Locks.lean`: every lock of the program; every function that takes one, as nested critical sections and places where it waits for a peer; any number of threads that run such code, with `sync.RWMutex` preferring writers | invariant: each thread's remaining work takes locks in the order of a rank and waits for nobody meanwhile; the thread that waits for the lock of highest rank leads to a thread that can run; violations by runs of two threads |
| C138 | `Verif/Model/LogLines.lean`: the formats of the messages about requests and connections, with which pieces come from the client and whether each is formatted with `%s` or `%q`; net/url's reading and writing of request targets | by computation over pieces: a message is clean iff each piece is; a target that is accepted has no control characters, and neither has a URL written from it; quoting escapes them. The exceptions are exact (`path_line_iff`, `conn_text_iff`) and for each one any line can be forged |
| C139 | `Verif/Model/Memory.lean`: the events and names with metrics, with what `handleConnection` records for any first message; for logins, codes and challenges the models of the identity providers (`Oidc`, `Saml`, `Login`, `Passkey`) | events: the keys are distinct and each is one of finitely many; the others: each step adds to the number of entries that are young enough at most what it begins, and what remains after the removal of old entries is young enough; violations for any list of requests |
| C140 | `Verif/Model/Wire.lean`: request lines and bodies, with net/url's reading and writing of targets (`LogLines`), the decisions of the handler (`Http.serve`) and the two assignments to the length and the body | the target is split into path and query; what is written decodes to the path of the URL, whichever field it is taken from; a dot segment of an encoded path is one of the decoded path, and canonical paths have none |
| C141 | `Verif/Model/Patience.lean`: clients that choose when each byte arrives, reads with deadlines, the two `Peek`s, the waiting for a PROXY header, the context of the handshake, and the timeouts of the HTTP server | by induction over the bytes that are read: a read with a deadline returns by then, returns all bytes if they arrive before it and not all if one does not; without a deadline it never returns iff the client goes silent before the last byte; induction over requests |
| C142 | `Verif/Model/PkiCache.lean`: the delegate certificates as objects with a stored and a parsed certificate, `parse`, and the reading of the file into the objects that are in memory, with or without reuse | invariant: the key belongs to the first certificate, in the file and in memory (always); a parsed certificate is the stored one, and the objects are those of the file (until a rotation fails) |
| C143 | `Verif/Model/Races.lean`: every function that uses shared data as a sequence of critical sections with reads and writes in them; goroutines that make any sequences of calls | invariant: exclusive locks are held by one goroutine, and what each goroutine has still to do uses data only under its lock, or, for the token keys, from the goroutine that alone writes them; conversely every function that breaks the rule is run to the point where it races |
| C144 | `Verif/Model/CrossSite.lean`: what a browser sends for a page of another origin (which headers it may set, which cookies go along, whether it is intercepted by the service worker), and what the handlers of the certificate, SSH and logout pages and of WebSockets do with it (`PkiPage.serve`, `Sshca.serve`) | a request from elsewhere has no `x-csrf-check` header, since that needs a preflight which is never answered, hence each handler refuses it; the two exceptions as theorems for any page |
| C145 | `Verif/Model/ClientKeys.lean`: `MakeCSR`, `MakeResponse` and the service worker as a transition system whose events are forms, answers and restarts | invariant: counts number the runs since the last restart, every key in memory belongs to a run that has no certificate yet, no key is used by two runs; splitting of names by induction |
| C146 | `Verif/Model/OcspSig.lean`: answers with their signer and embedded certificates, `ParseResponseForCert` with its rules for signatures, as environment of the model of the cache (`Ocsp`); `VerifyConnection` of the command line client | cases of `parse`; what is new in the log of a verification was parsed for its issuer; an answer signed by the holder of the certificate is followed through `useStaple` and the chains |
| C147 | `Verif/Model/Replies.lean`: an answer as it arrives from the server (length or not, whole or not), the decoding of `http.Transport`, the headers in `ReverseProxy` and `reverseProxyModifyResponse`, the panic with which copying ends and the deferred `recover`, and how the server ends the answer | cases of each stage; a separate spec says what the values of a header are, and when a body is whole |
| C148 | `Verif/Model/Sockets.lean`: `dial` with what it opens, closes and lists for every outcome of every attempt; `Close` of what it returns; the goroutine of `dialQUICBackend`, the one of `OnClose`, the server and the user as a machine | induction over attempts; an invariant over all interleavings in which the connection is not lost early; a spec says what tidy, in use and settled mean |
| C149 | `Verif/Model/Restart.lean`: what `New` and `Start` take from the configuration, on top of `Reconfigure` of `Verif/Model/Reconf.lean`; who answers over QUIC, and who advertises HTTP/3 | induction over the history of reloads; a separate spec lists what clients, servers and the certificate authority can see |
| C150 | `Verif/Model/Caching.lean`: the handlers that set Cache-Control or an Etag, what they say at a moment being a parameter; a shared cache that follows RFC 9111; rotation of delegates; rotation of keys from `Verif/Model/Keys.lean` | invariant of the cache over all histories of requests: every entry is a reply of the proxy of some moment; induction over rotations for keys and delegates |
| C151 | `Verif/Model/Follow.lean`: the loop that reads the configuration, the check for equality, and loading of certificates from files; YAML and the other checks are parameters | induction over the rounds of the loop, for every history of the files |
| C152 | `Verif/Model/Queries.lean`: the URL that a login is begun with, the form for tokens, the redirection with a code, the SAML request and its XML, the redirections of passkeys; `url.QueryEscape`, `url.ParseQuery`, `Values.Encode`, `xml.EscapeText` character by character; deflate and base64 of SAML requests are a parameter | readers after the URL standard, RFC 6749 and XML are written separately; they are shown to read what was written, by induction over texts and lists of parameters |
| C153 | `Verif/Model/Layers.lean`: the types of connections and the functions that look through them, the notes that are kept with connections and who sets them, `formatConnDesc` and the destinations on the page with metrics; addresses are numbers | shapes of connections are given by inductive predicates, which are followed through the functions; notes by induction over any interleaving of events, with a frame rule for connections that an event does not touch |
| C154 | `Verif/Model/Sign.lean`: `tpmSigningMethod.Sign`, `CreateToken` after the choice of the key, `getKey`, `ValidateToken`; `asn1.Unmarshal`, `Int.FillBytes`, `Sign`, `Verify` and `Parse` of golang-jwt; JSON, hashes and the mathematics are parameters | the forms of X.690, RFC 7515 and RFC 7518 are written as separate predicates; numbers are followed from DER to the halves of a signature and back by induction over their bytes; acceptance is shown to be equivalent to the form and the mathematics |
| C155 | `Verif/Model/Dispatch.lean`, `Http.lean`, `Config.lean` twice each; `Verif/Model/Same.lean` for streams and the rate limit | two runs of the model side by side; validity of the one configuration is carried over to the other field by field; runs without streams are runs of the machine of C136 |
| C156 | `Verif/Model/Audit.lean`: the messages along the ways of `Verif/Model/Http.lean`, with the texts of `LogLines.lean` | cases over the ends of requests; the names are read back from the line by the reader of C138 |
| C157 | `Verif/Model/Audit.lean` | two requests side by side; occurrence of the query in the text of the message; quoted session identifiers are read back |
| C158 | `Verif/Model/Defaults.lean`: what `Check` fills in, and what the users of the settings assume | a relation between two configurations that differ by documented defaults, preserved by each step of `Check` |
| C159 | `Verif/Model/Bandwidth.lean`: the token bucket, and the calls of any number of connections | invariants over histories: the bucket against all windows, and the time since when it has not been full |
| C160 | `Verif/Model/Numbers.lean`: what `Check` makes of the numbers, and one request on its way through their users | linear arithmetic; induction over any number of logins |
| C161 | `Verif/Model/Assertion.lean`: `verifySignature` with the fields of COSE keys, and what registration and login do with keys | exact characterisation of what is accepted; from registration to login for all signatures; a reduction to a hash collision |
| C162 | `Verif/Model/RelyingParty.lean`: requests at the token and userinfo endpoints, on top of `Verif/Model/Oidc.lean` | invariants of the tables over all sequences of requests of others; the standards as a relation between methods and requests |
| C163 | `Verif/Model/Halt.lean`: `acceptLoop`, `Stop` and the handlers of TCP connections as threads with a list of connections and a context | an invariant of all interleavings; a measure for the steps that are left |
| C164 | `Verif/Model/KeyTypes.lean`: key types, creation and start of both kinds of certificate authorities, the keys that sign OCSP answers | tables of the documentation against those of the code; induction over restarts and requests |
| C165 | `Verif/Model/PlainHttp.lean`: the handler and the connections of the plain HTTP port | noninterference between the cache and the answers; exact answers for all requests; connections over time |
| C166 | `Verif/Model/Signpost.lean`: the link, the text and the button of the login page, and where the login leads | percent-encoding undone for all names; prefixes of addresses before and after the query is added |
| C167 | `Verif/Model/ByteArrays.lean`: `Bytes.MarshalJSON`, the arrays of the scripts, and reading into `Bytes` | the grammar of JSON arrays as inductive relations; joining and splitting inverse to each other |
| C168 | `Verif/Model/Tally.lean`: `setCounters` with its two critical sections, the counters of connections, the rows of the page, and `formatSize10` | an invariant over all interleavings that ties entries to sums over connections; texts read back as numbers |
| C169 | `Verif/Model/Enrol.lean`: how the managers of passkeys get access lists, and how they use them | folds over providers in any order; permutations as witnesses |
| C170 | `Verif/Model/Spin.lean`: the loops that accept TLS and QUIC connections, and that of net/http | induction on the number of rounds; invariants about time and lines |
| C171 | `Verif/Model/Pem.lean`: the PEM and DER files of the certificate authority, with the base64 encoder and the line breaker of encoding/pem | invariant of the line breaker over all pieces; unique readability by cancellation; prefix-freeness of DER elements |
| C172 | `Verif/Model/PemRead.lean`: pem.Decode and the loops around it, with the base64 decoder | induction on blocks; first occurrences of the last line; round trip of base64 by groups |
| C173 | `Verif/Model/Possession.lean`: `handleRequestCert` from the body to the request for the certificate, on top of the model of pem.Decode | equivalence by cases; round trip of C172; signatures as a relation between keys and requests |

## Where the code does not do what the property says

Each line is backed by a `..._violated` theorem unless marked (read): those were noticed while
transcribing and are visible in the model or in the cited code only.

* C02 a TLS record of length zero makes `peekClientHello` index an empty slice (panic).
* C04 an empty string in an ALPN list of the configuration matches clients without ALPN.
* C09 at most `MaxOpen - 1` connections are served; C10 QUIC admission leaks the in-flight count.
* C12 a backend that lists only `h3` is still found over TCP by the certificate callback.
* C14 concurrent dials share `next`, so one request may miss a healthy address.
* C15 raw backends' `close` is a no-op for their connections; send on a closed channel is possible.
* C16 lost wake-up in `Shutdown`; C86 a refused late connection never closes its HTTP/3 server.
* C19 bandwidth limits are changed before a later error refuses the configuration; C20 a limit whose
  name has upper-case letters is silently not applied.
* C21 `reAuthorize` dereferences a nil client certificate / nil ACL; passthrough connections are
  re-checked against the default backend.
* C26 the ACL entry "@" matches every email without "@"; C77 bare `HasSuffix` comparisons.
* C27 an SSO policy is accepted but not enforced in TCP, TLS, QUIC and TLSPASSTHROUGH modes.
* C30, C34 a client's `Connection: <name>` header strips headers that the proxy added.
* C32 '/' is not escaped in the subject of X-Forwarded-Client-Cert.
* C35 login cookies are passed on for paths outside the policy and for backends without SSO.
* C37 the addresses of path overrides are ignored by a backend that has none itself.
* C40 rewrite rules can write reserved claims; C41 bearer validation does not look at the provider;
  C42 a login token is accepted as ID token on the issuer's host; C43 a SAML attribute named `url`
  turns a login token into a URL token, and URL tokens never expire.
* C44 stored keys that cannot be loaded are dropped, start-up then succeeds without a key;
  C45 after more than a week of downtime old tokens become invalid within two hours.
* C48 the rate over exactly the whole history is 0.
* C53 fetched OCSP responses are not matched to the certificate and their NextUpdate is not checked.
* C54 the nonce inside an ID token may select another pending login; C58 `redirect_uri` is not
  compared at the token endpoint.
* C60 `NotOnOrAfter` equal to the current time is accepted; C89 SAML answers are not tied to a
  browser; C90 text after the last PEM block is a nil dereference.
* C63 keys are attached by email only (read); C64 origin, purpose and counter of assertions are not checked;
  C65 authenticator extensions are not parsed; C91 first registration ignores the refresh interval.
* C66 `DeleteKey` answers "ok" although the deletion failed (read).
* C67, C72 serial numbers of different sign share their text; a negative one is reported as good.
* C69 a CRL is served up to 30 minutes after its NextUpdate, and a revocation in the same second
  as the last CRL is missing from it; C70 DNS names of a request are copied unchecked (read);
  C71 two racing requests revoke the same certificate twice.
* C74 a reconfiguration during clean-up can cause the revocation of a certificate in use.
* C76 PROXY protocol versions "v0", "v-1", "v+2", "v127" are accepted.
* C79 finished one-way streams stay listed, a deadline counts as an end; C80 a second `OnClose`
  replaces the first; C81 the end of one WebSocket direction drops the other's data.
* C82 a passkey provider may name itself as its identity provider; C83 SNI is matched
  case-sensitively.
* C85 a raw backend declaring h3; C87 a certificate without an OCSP server crashes handshakes.
* C96 an endpoint URL without a path never answers (an OCSP URL without a path takes over all paths
  of its host); C97 the ACL of passkey registration depends on which backend hosts which callback.
* C98 the nonce of a passkey login is not tied to the browser; C99 the page to return to is signed with
  whatever `Host` header the first request had: together an open redirect after login.
* C101 changing the domain of a provider leaves users with a login that logging out does not remove;
  C102 with overlapping provider domains a completed login may not be recognised, over and over, because
  only the first of two login cookies is looked at.
* C104 a document root of a path override that is a file makes "/x/" and "/x" redirect to each other for ever.
  The same happens when a backend without addresses has an override with addresses and a file of that name.
* C106 `ServeOCSP` cuts the base64 text out of the already decoded path at the last '/': most GET requests in the
  standard alphabet, the one RFC 6960 prescribes, contain a '/' and are refused or misread.
* C107 `RevokeAllCertificates` reports success although it has skipped entries it could not read. And `parsePrivateKey` does not look at the error of its last parser, which returns a nil `*rsa.PrivateKey`: a private key that no parser accepts counts as a key, and revoking with it is a nil dereference. One such entry of the cache ends the run before the certificates after it are revoked, and the same happens in the thread that revokes unused certificates, where it ends the proxy.
* (read) `handleDownloadCert` does not check whose certificate is downloaded. The port of `Alt-Svc` is taken from the `Host` header.
* C108 `ServeJWKS` drops leading zero bytes of EC coordinates (RFC 7518, 6.2.1.2 wants 32 bytes): one key in 128 is
  unusable to strict readers.
* C109 the discovery document drops the port of the Host header, and names the first server name as issuer whichever
  name it was fetched from.
* C111 The PROXY header is silently not sent over HTTP/3 (`dialQUICBackend`) or in QUIC mode although
  `proxyProtocolVersion` is accepted.
* (read) `VerifyChains` accepts an empty list of chains. `Limiter.WaitN` fails for writes
  larger than the burst. The ClientHello parser tolerates a wrong 24-bit length. Endpoints are only added to the first
  backend that lists the host; clashing URLs are resolved by an unstable sort. A passkey or OIDC `domain` that is only a
  textual suffix is accepted by the configuration and ignored by browsers, which gives a login loop.
  `maybeRotateDelegateCert` reads `m.db` without the lock; after a failed commit of a revocation the map in memory
  keeps the entry.
  `RemoteAddr` of a connection with PROXY protocol waits for the header without a deadline, so a silent trusted peer
  blocks whatever logs or lists its address (read).
  The patterns in `tlsCertificates` are neither checked nor normalised: malformed ones are ignored silently, names with
  capital letters or not in ASCII never match (read), and `*.example.com` also stands for `a.b.example.com`, for which a
  certificate with that name is not valid (example beside C114).
* C115 a client that has begun, but not finished, a TLS handshake with a backend that has an ACL of client certificates makes
  `reAuthorize` dereference a nil certificate when a changed configuration is taken over: anybody can arrange that the next
  change of the configuration ends the process. Passthrough connections routed by protocol are closed by every such change.
* C117 modes TLS and HTTPS without `forwardServerName` (documented as one of three alternatives) and without
  `insecureSkipVerify` are accepted, but crypto/tls refuses every handshake. Path overrides do not inherit the settings of
  their backend, so every HTTPS override needs its own. A list of CAs in which only some certificates can be parsed is
  accepted silently (read). `dialQUICStream` does not close the connection if no stream can be opened (read).
* C118 an attribute named `source` in a SAML assertion replaces the issuer in the claims of the login. The issuer itself is not
  compared with anything, and only the first of several audiences is looked at (read).
* C119 a stream that is reset or lost is passed on as if it had ended in order: `forward` calls `Close` on the other connection, which
  sends a FIN on a QUIC stream and a close notification on TLS. The peer cannot tell truncated data from complete data. A one-way
  QUIC stream is cut in the same manner once HalfCloseTimeout (one minute) has passed, although nothing was closed: the direction that
  does not exist returns `io.EOF` at once and sets the deadline for the one that does. With TCP at both ends (passthrough), a server
  that ends its stream while the client is sending makes the proxy reset the client's connection, which may lose data.
* C120 `Close` on a QUIC stream ends only the writing side. When a client resets a stream, or a TCP server closes its connection, the
  proxy goes on reading from the other peer without any deadline, for as long as that peer says nothing and keeps its connection.
* C121 in mode QUIC, the end of the server's connection does not end the client's: the loops that accept the client's streams go on.
  A stream that the client opens afterwards is not relayed; the proxy never ends or resets its own side of it, and calls `CancelRead`
  only after an application error. When the client goes away, the connection to the server is kept as long as the server says nothing
  on some stream.
* C122 on streams opened by the server, `serverCloseEndsConnection` and `clientCloseEndsConnection` are interchanged.
* C123 on QUIC a client whose certificate comes from the CA of another backend, or from a CA that a reload has removed, resumes a
  session and reaches a backend that does not trust this CA (with Go 1.23, the release of go.mod). The revocation list of the PKI it
  came from is not consulted either. Over TCP, a CA that expires before a certificate it issued is not noticed on resumption.
* C124 `certs.js` drops the `admin` parameter, so an administrator's Revoke button beside other users' certificates answers "permission
  denied". View and Download of revoked certificates answer with an internal error. The handler accepts an administrator's request to
  revoke the CA certificate itself.
* C125 a connection in its handshake while a changed configuration is taken over may be handed to the old backend, whose listener
  swallows it: neither served nor closed, and counted as open until the proxy stops. The same happens to every stream that is opened after the change
  on an older QUIC connection. If such a connection ends at the right moment, the stream's handler sends on a closed channel and the
  whole process ends; a client can try this as often as it likes.
* C127 `getClientCert` (proxy.go:641-659) asks the certificate manager without looking at `tlsCertificates` and `acceptTOS` (`client_certificate_violated`); the name of a ClientHello without server name is read from the configuration twice (`handshake_default_violated`); over QUIC the handshake precedes the IP rules (`quic_denied_violated`).
* C128 `maybeRotateDelegateCert` puts the new delegate certificate in memory before it is stored. If storing fails, the next request finds it in memory, does not renew, and then reads the old one from the file: revocation lists are signed with an expired certificate, or, if there was none, `m.db.DelegateCerts[0]` panics (`expired_delegate_violated`, `panic_violated`).
* C128 The CA certificate is renewed only when the proxy starts. Certificates are issued for ten years from now whatever the CA certificate's end date is, so they outlive it (`ca_expired_violated`).
* C128 (read) `maybeRotateDelegateCert` reads `m.db` without holding `m.mu`: a data race with every critical section.
* C130 "DeleteKey" in `ManageKeys` (manager.go:630-635) answers "ok" whatever `deleteKey` returned (`delete_answer_violated`).
* C131 `ManageKeys` (manager.go:518-534) compares `Host` with the host of the endpoint as it was written. Browsers send it in lower case and in ASCII, so with `Login.example.com` in the configuration the page redirects forever (`manage_unreachable`).
* C132 `opts.RelyingParty.ID = ep.Host` (manager.go:794-795) includes the port, `processAttestation` (manager.go:866-873) expects the host without: with an endpoint like `https://login.example.com:8443/...` no key can be registered (`port_blocks_registration`).
* C132 (read) `assertionOptions` answers a registered name with its keys and any other with a fixed one: anybody with a URL token can find out who is registered.
* C135 A request without a Host header (HTTP/1.0, or an empty one) is accepted for the server name of the TLS connection (backend-http.go:220-225), but `req.Host` stays empty and `req.URL.Host` is replaced by the hash that names the connection pool (298-299): that is what the backend server gets as Host. `req.Header.Set("Host", …)` in line 225 has no effect on what is sent (`host_told_violated`).
* C136 `ctx.Value(connCtxKey).(annotatedConnection)` in backend-http.go:243 never succeeds for HTTP/1 and HTTP/2: the value is the `*tls.Conn` that `handleHTTPConnection` passed on, which has no annotations (elsewhere `annotatedConn` unwraps it). So `forwardRateLimit` does not apply to the requests of a connection, although the documentation says so (`rate_forwarded_violated`). Over HTTP/3 the flag of the first request is read and set in two steps, so requests that begin together are all let through (`rate_first_requests_violated`).
* C137 `SSHCA.ServeCertificate` reads the request's body with `ca.mu` held (sshca.go:259, 288): a client that may ask for a certificate and sends its body slowly keeps everybody else from getting one, or the public key, for up to 24 hours over TCP and without limit over HTTP/3 (`ssh_stalled_violated`).
* C137 `ServeCACert` (pki/http.go:78) and `ServeCertificateManagement` (223) write the answer with `m.mu` held, and `IsRevoked` needs it: a client that does not read its answer stops every TLS handshake with a client certificate of that CA (`cacert_stalled_violated`, `pki_page_stalled_violated`). The first takes no login.
* C137 `Reconfigure` fetches the discovery documents of OIDC providers with `p.mu` held and with `http.Get`, which has no timeout: while an identity provider does not answer, no connection is accepted (`reload_stalled_violated`). If the document is served through this proxy, the reload cannot succeed.
* C137 `metricsHandler` calls `RemoteAddr` of every connection with `p.mu` held for reading. For a connection whose PROXY header is expected, that waits for the header; when a writer comes meanwhile, everything waits, up to the 30 seconds that the header may take (`console_stalled_violated`). A connection above `maxOpen` has no time limit: `handleConnection` itself waits for its header in the arguments of the log message (proxy.go:1156), before it is refused.
* C137 `Stop` and `Shutdown` call `quicTransport.Close` with `p.mu` held. That waits for all QUIC connections to end; one in its handshake needs `p.mu` in `GetConfigForClient`, `GetCertificate` or `VerifyConnection`. The proxy does not stop, and accepts nothing (`stop_dead_violated`). The context of `Shutdown` does not help.
* C138: `req.URL.Path`, which is decoded, is logged with `%s` in backend-http.go:104, 136, 168, 183 and 187. A request such as `POST /%0A2026/11/16...` to a backend that serves static files writes any line into the log, without a login where none is needed for the backend (`static_forged_violated`). quic.go:82 logs the server name and protocols of a QUIC client with `%s`, and crypto/tls accepts any bytes but a trailing dot in a name: anybody who can send UDP packets to the proxy can write any line (`quic_name_forged_violated`). The reason phrase of a QUIC client's CONNECTION_CLOSE is logged with `%v` (quic.go:196-208, `quic_reason_forged_violated`). `%q`, or `req.URL` in place of `req.URL.Path`, as elsewhere, would do.
* C139: `RequestLogin` of all three identity providers stores an entry (oidc/client.go:149-202, saml/saml.go:108-149, passkeys/manager.go:210-256) and removes no old ones; `HandleCallback` does (client.go:209-213, manager.go:262-271), for SAML only once the signature of an assertion is valid (saml.go:191-195). Whoever asks for logins in a loop and never comes back fills the memory; with SAML even with a limit on the rate, until some user logs in (`oidc_logins_violated`, `saml_logins_violated`, `passkey_logins_violated`). Removing old entries where new ones are stored, as `vacuum` of the challenges does, would do.
* C140: `req.ContentLength < 0` with a method other than POST, PUT and PATCH is taken for a request without a body (backend-http.go:346-352). It also is that of a chunked body, or one of unknown length over HTTP/2: the bodies of PROPFIND, REPORT, QUERY or DELETE requests are dropped and the server gets an empty one (`body_violated`). Only requests with `Body == http.NoBody` have none.
* C141: the message about too many open connections (proxy.go:1156) contains `conn.RemoteAddr()`. For a peer in `acceptProxyHeaderFrom` this reads the PROXY header, and no deadline has been set yet, so a connection that such a peer opens and does not use, as load balancers do for health checks, is held forever when the limit is reached, counts towards the limit, and its client does not get the alert (`held_violated`).
* C142: `certificate.parse` keeps its result in the object, and `OpenForUpdate` decodes the file into existing objects. If a new delegate certificate cannot be stored, the next request parses it, and the next reading of the file puts the old certificate and the old key back around the parsed new one. From then on OCSP answers and revocation lists carry the new certificate, and are signed with the old key, for about five days or until a restart; a list that was stored is served even after it (`verifies_violated`). That encoding/json reuses the elements of slices is golang.org/issue/21092. Decoding into a new structure, or clearing `cert`, would do.
* C143: `Proxy.cfg` is replaced under `p.mu` by `Reconfigure`, and read without it for every message that is logged, for `MaxOpen` (proxy.go:1154, quic.go:169), for `AcceptTOS` (proxy.go:1046) and in `revokeUnusedCertificates`; `Backend.http3Server`, an interface of two words, is set to nil under the lock of the backend and read without it (quic.go:210, backend-http.go:398); `maybeRotateDelegateCert` looks at the delegate certificates, and parses one, without the lock of the PKI, while another request reads the file into the same objects; `Reconfigure` compares the new configuration with the old one without the lock, while `Stop` removes the backends from it; the time of the last answer of a WebSocket is written by the goroutine that reads and read by the one that asks, without a lock (websocket.go:79-94) (`no_race_violated`). That `rotateKeys` looks at the keys without the lock is no race, because only one goroutine calls it.
* C144: the logout page needs nothing but a GET request (backend-sso.go:222-237), so that any page can end the session of a visitor with a link (`logout_violated`). The service worker of the certificate page answers form submissions to `…/generateKeyAndCert` from any site, and sends a request with the cookies and the header `x-csrf-check` that is to prove that it comes from the page (sw.js:44-75); so any site can have certificates issued in a visitor's name, with a password of its choice (`worker_violated`). The worker should look at `event.request.referrer` or the origin. Read, not modelled: the origin check of WebSockets compares hosts and not schemes.
* C145: if the server refuses a certificate or cannot be reached, `generateKeyAndCert` (sw.js:52-85) ends with an exception and nobody removes the private key and the password from `privateKeys` (impl.go:62-66); they stay in the memory of the service worker (`forgotten_violated`). `MakeResponse` deletes the key before it looks at the format (impl.go:96-128), so that with an unknown one the certificate has been issued and its key is lost (`key_lost_violated`); checking the format in `MakeCSR` would do. `MakeResponse` does not check that the certificate is for the key that it is packaged with; that this is so rests on the server (`Honest` in `package_own`).
* C146: `ocsp.ParseResponseForCert` checks that an embedded certificate is signed by the issuer, and not that it is for signing OCSP answers (RFC 6960, 4.2.2.2). `VerifyChains` relies on it for what clients staple (ocsp.go:135-145); crypto/tls asks clients for it. So the holder of a client certificate that its (external) CA has revoked staples an answer that says good, signed with the key of this very certificate, which is embedded as that of the responder. It is admitted unless the cache already knows of the revocation, and the answer is kept, and stored, until the `NextUpdate` that it has chosen (`staple_forged_violated`, `forged_kept_violated`). The same holds for backend servers, and for whoever can answer for an OCSP server (plain HTTP) and has a certificate of the issuer. Checking `resp.Certificate == nil || slices.Contains(resp.Certificate.ExtKeyUsage, x509.ExtKeyUsageOCSPSigning)` would do; so would ignoring what clients staple. In tlsclient, `-ocsp` takes the second certificate that the server sends for the issuer, though it need not be in the verified chain (main.go:120-123): a server with a revoked certificate sends one of its own making (`client_issuer_violated`); and a server with a certificate directly from a root, which sends no other, is refused with a good answer (`client_root_violated`). `cs.VerifiedChains` has the issuer.
* C147: when the connection to a backend server breaks in the middle of an answer, `httputil.ReverseProxy` panics with `http.ErrAbortHandler`, so that net/http resets the connection or stream of the client. The deferred function in `reverseProxy` recovers from it, logs "Aborted" and returns (backend-http.go:68-74, 201-206). So net/http ends the answer properly: if it has no Content-Length, the client takes the part for the whole, and may cache it (`truncated_violated`). Panicking again with `http.ErrAbortHandler` after logging would do. The transport for HTTP/1 has no `DisableCompression`, unlike the other two (backend-http.go:473-483): for clients that send no Accept-Encoding it asks for gzip and decodes, so that the body is not the one to which ETag or Digest belong, and an answer that cannot be decoded, or is cut off though its length was announced, ends as above (`decoded_violated`).
* C148: `dialQUICStream` opens a connection of its own for each stream. If `OpenStreamSync` fails, it returns the error and forgets the connection (quic.go:486-496, `failed_violated`). Closing the stream closes only its sending side (netw/quic.go:590-594); nothing closes the connection, which is no longer listed then (`closed_violated`). It ends when it has been idle for long enough, which a server can prevent by sending pings. `dialQUICBackend` calls `OnClose` before it lists the connection (quic.go:567-570). If the connection ends in between, the goroutine of `OnClose` removes it before it is added, and it stays in the list for good (`ghost_violated`). The other two places add first.
* C149: `EnableQUIC` can be reloaded in part only. Turned off, the QUIC listener stays and answers for all backends with the new configuration (`quic_off_violated`). Turned on, backends send Alt-Svc with a lifetime of 30 days, but nothing listens (`quic_on_violated`). `Email` and `AcceptTOS` are given to the certificate manager once (proxy.go:204-215): a proxy whose configuration is corrected to accept the terms goes on to refuse (`account_violated`). The comment of `Reconfigure` mentions addresses and `CacheDir` only. `Check` accepts a group of limits without a name (config.go:1016-1021), which limits all backends that name no group (proxy.go:450-452); and as `p.bwLimits` never forgets a group, it does so after it was removed from the configuration (`limit_violated`).
* C150: `ServeCRL` sets `public, max-age=1800` before it knows whether there is a list (http.go:104), so that an error is kept by caches for half an hour (`crl_error_violated`). `serveSSOStatus` and the other pages about a user say nothing about caching (`status_violated`). A list that is served up to half an hour after its end (C69) may then stay in a cache for another half hour (`crl_late_violated`). A new delegate signs at once, while copies of the certificates without it may be used for a day (`delegate_violated`; OCSP answers and the PEM form of the list carry the certificate along). The DER form of `ServeCACert` is the certificate of the authority with those of its delegates appended, which is not what RFC 5280, section 4.2.2.1 allows for the address of the issuer (`ca_der_violated`).
* C151: `Reconfigure` returns at once if the configuration is the same as before (proxy.go:285-287), but `rootCAs`, `forwardRootCAs` and the certificates of SAML providers may be names of files, which are read only when the configuration changes. A certificate authority that is taken out of such a file stays trusted until something else in the configuration changes or the proxy is restarted (`trust_violated`).
* C152: `RequestLogin` writes `authEndpoint + "?" + …` (client.go:181). With an endpoint that has a query of its own, which RFC 6749 3.1 allows, the provider finds no `response_type`; it is a part of the value of the last parameter of the endpoint (`login_query_violated`). With a fragment it finds nothing (`login_fragment_violated`). The server and SAML do this with `url.Parse` and `Query()`, which drops the fields that it cannot read, so that a parameter with a semicolon in a registered redirect URI does not come back (`own_violated`).
* C153: `dial` notes the connection to the server with the connection in its context (backend.go:181-184), which is the QUIC connection for all of its streams. The streams have copied the notes before (`WrapConn`), so the line about a stream shows the connection of an earlier stream, or none, never its own (`stream_line_violated`); and metrics.go:336-340 prefers the note to `BridgeAddr`, so that all streams are shown with the server that was dialed last (`console_violated`). Lines about requests have the same fault when connections are pooled (`request_line_violated`). `setKeepAlive` does not look through PROXY connections (`keepalive_iff`); the default of Go applies to them.
* C154 holds. Beside it: the size of half a signature is rounded down (`CurveBits / 8`, tokenmanager.go:400), which would be wrong for P-521; all keys are on P-256. Line breaks in the signature of a token are ignored (`other_text`).
* C155 a blocked client that offers only acme-tls/1 gets a handshake; with QUIC every blocked client completes the handshake, sees the certificate and is then told "access denied" (quic.go:178-183), whereas an unknown name fails the handshake. Mode LOCAL serves its files for every Host header, modes HTTP and HTTPS answer 421; a certificate authority's endpoint is refused on a backend in mode HTTP. `handleQUICTCPStream` dials without `connLimit.Wait`: one QUIC connection opens any number of connections to the servers at once.
* C156 requests answered with 421 (other host), 508 (loop), 500, 302 with a new ID token, and 502 leave no line about the request; nor do the pages of the profiler (pprof.go:33-41 does not use `logHandler`). Who probes for host names is not seen.
* C157 the parameters of a URL are logged verbatim, among them the tokens of "/.sso/login?redirect=" and "/.sso/logout?u=" (http.go:115), authorization codes sent to the callback path of another host (backend-sso.go:312), and anything for missing files (backend-http.go:124); only callbacks are logged without them (proxy.go:765). `ValidateURLToken` logs two session identifiers, the values of the cookie TLSPROXYSID, when they differ (urltoken.go:95).
* C158 `serverCloseEndsConnection` is documented to be true by default (config.go:406-409); in mode QUIC it is false unless written (config.go:942-946, `quic_close_violated`).
* C159 `Read` waits for as many bytes as its buffer has room for, before it is known how much there is (netw.go:202-206, quic.go:561-565). A connection on which little is sent at a time, such as a terminal, gets a small fraction of the limit (`small_reads_violated`); and connections that have been idle may all receive a full buffer at once, above the limit (`pile_violated`). A limit for one direction only stops the other direction for all connections of the group after 128 kB, because 0 is not "no limit" (proxy.go:425-426, `zero_violated`).
* C160 `Check` refuses no number (`accepted`). Where at most 203 files may be open and `maxOpen` is left out, the default is less than 2 and every connection is refused (config.go:797, `open_violated`); so they are with `maxOpen: 1`. A negative `forwardRateLimit` fails every connection in the limiter, a negative `forwardTimeout` every dial; a negative `forceReAuth` asks users to log in for ever (backend-sso.go:286 compares with 0, `reauth_violated`). With a `forceReAuth` below a second, users who log in late in a second are asked again at once (`round_violated`).
* C115 (also) between the server name and the choice of the backend no backend is recorded, so any connection that is there when a changed configuration is taken over ends the process (`reload_named_violated`).
* C161 Authenticators are offered RS256 (webauthn.go:105-108), as Windows Hello uses it, but `verifySignature` reads the exponent of RSA keys as an integer (webauthn.go:331), while it is a byte string (RFC 8230 section 4; `cbor.Unmarshal` fails). Such a passkey is registered, and no login with it ever succeeds (`usable_violated`). The tests have their own authenticator, which encodes the exponent as an integer too (testutils.go:227-239). Registration does not look at the public key at all (`unknown_violated`).
* C162 The discovery document has no `token_endpoint_auth_methods_supported` (server.go:60-71), which means `client_secret_basic` (OpenID Connect Discovery section 3, RFC 8414 section 2), but `ServeToken` reads the client and its secret from the parameters only (server.go:350-351): no client that uses the method that is meant, the one that RFC 6749 section 2.3.1 requires of servers, ever gets tokens (`basic_violated`). Access tokens are refused from the second request on (`again_violated`), and are deleted two minutes after the login although the answer, which may come up to two minutes later, promises 90 seconds (`expires_violated`).
* C164 `keyType: ed25519` is documented for both kinds of authorities (config.go:566-568, 593-595), but with `hwBacked` both refuse it (pki.go:365-366, sshca.go:222-223), so that the proxy does not start (`tpm_violated`). Key types are compared without regard to case (keys.go:39), except where OCSP is kept away from Ed25519 (pki.go:412): with `keyType: Ed25519` the signing key for OCSP is an Ed25519 key, `maybeRotateDelegateCert` replaces it at every request (pki.go:398), `ocsp.CreateResponse` refuses it, and every OCSP request, which anybody can send, adds a certificate to the stored database (`case_violated`).
* C165 The server of the plain HTTP port is created without `ReadHeaderTimeout` or any other timeout (proxy.go:910-912; the servers of backends have 30 seconds), and its connections are not in `inConns`, so `MaxOpen` (proxy.go:1154) does not apply to them: a client that opens connections and sends nothing keeps all of them (`idle_violated`), and any number of them (`unlimited_violated`), until no file descriptor is left for the TLS port either.
* C166 `URLToken` replaces the host, with its port, by the name in Unicode, without port (urltoken.go:67-71), and the result is used as the link of the page as well as for display (login-template.html:158): on any port but 443, the link leads elsewhere (`link_violated`; the login itself comes back to the right place, `target_right`). As `URL.String` percent-encodes what is not ASCII, the conversion makes names worse to read: `https://caf%C3%A9.example/` (`unreadable_violated`). `guessIDP` gets the endpoint of the configuration (proxy.go:334), but a discovery document replaces it (client.go:133): with `discoveryURL` alone, as documented, no provider is named (`unnamed_violated`), and with both, the button can say Google and lead elsewhere (`misnamed_violated`).
* C169 `addLocalHandler` gives the list of a backend to the passkey manager that the backend uses whenever a callback of any provider is on it (proxy.go:752-756), not only that of the manager itself, and the providers come from a map (proxy.go:759): with callbacks on two backends that use the same passkey provider with different lists, each start picks one of the lists at random (`order_violated`). When the endpoint is on a backend without single sign-on, or with that of another provider, the manager has no list, and everybody whom the other identity provider knows may register passkeys (`everybody_violated`).
* C170 `acceptLoop` (proxy.go:951-959) and `quicAcceptLoop` (quic.go:103-113) try again at once after an error. When no file descriptor is left while a client waits, or the socket of QUIC has failed for good, they use a whole processor and write log lines without limit (`spin_violated`, `forever_violated`). net/http waits 5 ms to 1 s (`http_waits`).
* C171 `ServeCACert` appends the certificates of the delegates to that of the authority also in DER form (http.go:95-98), with the type `application/x-x509-ca-cert`. The URL is in the certificates as the address of the issuer (pki.go:760), where RFC 5280 wants a single certificate or a CMS message: strict readers refuse the file because of the data after its end (`der_violated`). It works until the revocation list or OCSP is first asked for, because there are no delegates before.
* C173 A signing request has neither the address of the user nor anything fresh in it, and the server takes the address from the login only (http.go:386-397). Whoever has seen the request of someone else gets a certificate with their own address for the key of the other (`other_violated`). Without the private key it is of little use to them, but what the holder of the key signs can then be passed off as theirs.

## Trusted base

* The Lean 4.33.0 kernel. Axioms that occur: `propext`, `Classical.choice`, `Quot.sound` (the
  standard ones); listed per theorem at the end. No `sorry`, no `native_decide` or `bv_decide`, no
  axioms of our own.
* The correspondence between the Go text and the model, by reading: each definition cites its lines.
* The Go runtime, the standard library and the other libraries are not in the sandbox, so nothing about them was
  checked against their sources. Where a property depends on them, their behaviour is a parameter of the model, and
  what is assumed of it is a hypothesis of the theorem.
* Exceptions: some rules of libraries, protocols and browsers are part of the model, written down from memory of their
  documentation and sources (Go 1.23 unless said otherwise). Theorems that use them are only as good as these
  transcriptions. They are: `path.Clean`, `path.Match`, `os.Expand`, `strings`, `strconv.Quote`, the verbs of `fmt`
  that occur; `net/url` (parsing, escaping, queries); `net/http` (routing, cookies, redirects, the loop of `Serve`,
  timeouts, transfer of bodies) and `httputil.ReverseProxy` (hop-by-hop headers, rewriting, errors); `crypto/tls` (the choice of
  certificates and protocols, client certificates, session tickets), `crypto/x509` where chains and revocation lists
  are compared; `encoding/json`, `encoding/xml`, `encoding/asn1`, `encoding/base64`, `encoding/pem`;
  `x/crypto/ocsp`, `x/crypto/ssh` (certificates and keys), `x/crypto/acme` and autocert, `x/time/rate`, `x/net/idna` for ASCII;
  quic-go (streams, closing, 0-RTT), go-proxyproto, golang-jwt, yaml.v3, fxamacker/cbor, etree and the SAML signature
  library; storage (opening for update, commit, roll-back); caching by RFC 9111; cookies, origins, cross-site requests and
  WebAuthn as browsers treat them. The head of each model file says which of them it uses and what was left out.

## Code that is modelled

Go functions of which at least part is cited by a definition of the model (lines of the function that are
cited / all its lines). What is left out of a cited function is said in the comment of the definition.

* certmanager/certmanager.go: `readRootKeyAndCert` (143-181; PemRead; 39/39), `saveRootKeyAndCert` (183-206; PemRead; 24/24)
* proxy/backend-http.go: `Backend.logPanic` (68-74; Audit, LogLines, Replies; 7/7), `Backend.localHandler` (78-93; Audit, EndToEnd, Http; 16/16), `Backend.redirectPermanently` (95-106; Audit, LogLines, Redirect; 12/12), `pathClean` (108-120; Audit, Path; 13/13), `Backend.serveStaticFiles` (122-190; Audit, Http, LogLines; 69/69), `Backend.reverseProxy` (194-355; Audit, Defaults, EndToEnd, Expand, Http, LogLines, Pool, Rate, Replies, Wire; 162/162), `addr2ip` (357-366; Expand; 10/10), `expandVars` (368-395; Expand, Http; 28/28), `Backend.setAltSvc` (397-414; Discovery, Races, Restart; 18/18), `Backend.handleLocalEndpointsAndAuthorize` (419-456; CrossSite, Http; 38/38), `Backend.reverseProxyDirector` (458-464; Http; 7/7), `funcRoundTripper.RoundTrip` (468-470; Replies; 3/3), `Backend.reverseProxyTransport` (472-521; Defaults, Pool, Replies; 50/50), `Backend.reverseProxyModifyResponse` (523-544; Audit, Defaults, Discovery, Http, Layers, LogLines, Replies; 22/22)
* proxy/backend-sso.go: `claimsFromCtx` (79-84; Expand; 6/6), `Backend.authenticateUser` (89-106; Audit, EndToEnd, Http; 18/18), `Backend.checkCookies` (108-145; Audit, Cookies, EndToEnd, Http, Token; 38/38), `Backend.serveSSOStyle` (147-161; Caching; 15/15), `Backend.serveSSOStatus` (163-201; Caching, Token; 39/39), `Backend.serveLogin` (203-220; Login; 18/18), `Backend.serveLogout` (222-237; Cookies, CrossSite, Login; 16/16), `Backend.servePermissionDenied` (239-268; Signpost, Token; 30/30), `Backend.enforceSSOPolicy` (270-345; Audit, CrossSite, EndToEnd, Http, LogLines, Login, Memory, Numbers, Signpost, Token; 76/76), `pathMatches` (347-358; Path; 12/12)
* proxy/backend.go: `Backend.incInFlight` (44-53; Handoff, Lifecycle, Locks, Races; 10/10), `Backend.close` (55-81; Handoff, Lifecycle, Locks, Races; 27/27), `Backend.dial` (83-191; Defaults, Dial, Layers, Locks, Numbers, OcspSig, Pool, Races, ServerAuth, Sockets; 109/109), `writeProxyHeader` (193-216; Dial; 24/24), `Backend.authorize` (218-241; Dispatch, Reconf; 24/24), `Backend.checkIP` (243-269; Dispatch; 27/27), `Backend.bridgeConns` (271-296; Bridge, Defaults, QuicRelay, Relay; 26/26), `forward` (298-322; Bridge, QuicRelay, Relay; 25/25), `closeWrite` (324-335; Bridge, Relay; 12/12), `closeRead` (337-348; Bridge, Relay; 12/12)
* proxy/config.go: `Config.clone` (771-776; Console; 6/6), `Config.Check` (780-1174; Config, ConnTracker, Defaults, Dial, Follow, Numbers, Rate, Relay, Restart, ServerAuth; 395/395), `validateProxyProtoVersion` (1176-1188; Config, Defaults; 13/13), `ReadConfig` (1191-1208; Follow; 18/18)
* proxy/conntracker.go: `connTracker.slice` (45-53; Locks, Races; 9/9), `connTracker.add` (55-64; ConnTracker, Locks, Races, Sockets; 10/10), `connTracker.remove` (66-72; Locks, Races, Sockets; 7/7)
* proxy/hello.go: `peekClientHello` (43-208; Hello, Patience; 166/166), `sendCloseNotify` (210-212; Hello; 3/3), `sendHandshakeFailure` (214-216; Hello; 3/3), `sendInternalError` (218-220; Hello; 3/3), `sendUnrecognizedName` (222-224; Hello; 3/3), `sendAlert` (226-235; Hello; 10/10)
* proxy/http.go: `startInternalHTTPServer` (39-56; Patience, Rate; 18/18), `serveHTTP` (58-62; Handoff, PlainHttp, Spin; 5/5), `proxyListener.Accept` (73-84; Caching, Handoff; 12/12), `proxyListener.Close` (86-98; Caching, Handoff, Locks, Pem, Races; 13/13), `proxyListener.Addr` (100-102; Caching; 1/3), `userAgent` (104-110; Caching, LogLines, Pem; 7/7), `logHandler` (112-119; Caching, LogLines, Pem; 8/8)
* proxy/internal/cookiemanager/cookiemanager.go: `New` (55-62; Token; 8/8), `CookieManager.SetAuthTokenCookie` (64-106; Cookies, Numbers, Oidc, Passkey, Token; 43/43), `CookieManager.SetIDTokenCookie` (108-143; Cookies, Token; 31/36), `CookieManager.SetNonce` (145-155; Cookies; 11/11), `CookieManager.Nonce` (157-170; Cookies; 10/14), `CookieManager.ClearCookies` (172-191; Cookies; 20/20), `CookieManager.ValidateAuthTokenCookie` (193-209; Cookies, Token; 17/17), `CookieManager.ValidateIDTokenCookie` (211-231; Token; 21/21), `CookieManager.ValidateAuthorizationHeader` (233-246; Token; 14/14), `FilterOutAuthTokenCookie` (248-256; Http; 9/9), `audienceFromReq` (258-264; EndToEnd, Token; 7/7), `audienceForToken` (266-279; Token; 14/14)
* proxy/internal/counter/counter.go: `New` (44-55; Counter; 12/12), `Counter.Value` (68-75; Counter, Locks, Races; 8/8), `Counter.Incr` (77-86; Counter, Locks, Races; 10/10), `Counter.Rate` (88-101; Counter, Locks, Races; 14/14), `Counter.advance` (103-118; Counter; 16/16)
* proxy/internal/netw/netw.go: `Conn.StreamID` (102-109; Layers; 3/8), `Conn.SetAnnotation` (112-114; Layers; 3/3), `SetAnnotation` (118-128; Layers, Locks, Races; 11/11), `Conn.Annotation` (132-139; Layers, Locks, Races; 8/8), `Conn.SetLimiters` (143-146; Bandwidth; 4/4), `Conn.SetCounters` (148-151; Tally; 4/4), `Conn.BytesSent` (154-156; Tally; 3/3), `Conn.BytesReceived` (159-161; Tally; 3/3), `Conn.ByteRateSent` (165-167; Tally; 3/3), `Conn.ByteRateReceived` (171-173; Tally; 3/3), `Conn.OnClose` (177-181; Halt, Locks, Netw, Races; 5/5), `Conn.Peek` (183-199; Hello, Netw, Patience, Tally; 17/17), `Conn.Read` (201-218; Bandwidth, Locks, Netw, Tally; 18/18), `Conn.Write` (220-230; Bandwidth, Locks, Netw, Tally; 11/11), `Conn.Close` (232-242; Bandwidth, Halt, Locks, Netw, Races, Sockets; 11/11)
* proxy/internal/netw/quic.go: `QUICConn.SetAnnotation` (160-167; Layers, Locks, Races; 8/8), `QUICConn.Annotation` (171-178; Layers, Locks, Races; 8/8), `QUICConn.Streams` (180-184; Locks, Races; 5/5), `QUICConn.removeStream` (186-192; Locks, QuicConn, Races; 7/7), `QUICConn.OnClose` (251-259; Handoff, Locks, Netw, QuicConn, Races, Sockets; 9/9), `QUICConn.Close` (261-270; Handoff, Locks, Netw, QuicConn, Races, Sockets; 10/10), `QUICConn.SetReadDeadline` (284-286; Layers; 1/3), `QUICConn.SetWriteDeadline` (288-290; Layers; 3/3), `QUICConn.WrapConn` (292-332; Layers, Locks; 41/41), `QUICConn.AcceptStream` (346-359; Locks, QuicConn, Races; 14/14), `QUICConn.AcceptUniStream` (361-374; Locks, QuicConn, Races; 14/14), `QUICConn.OpenStream` (376-389; Locks, QuicConn, Races; 14/14), `QUICConn.OpenStreamSync` (391-404; Locks, QuicConn, Races; 14/14), `QUICConn.OpenUniStream` (406-419; Locks, QuicConn, Races; 14/14), `QUICConn.OpenUniStreamSync` (421-434; Locks, QuicConn, Races; 14/14), `SendOnlyStream.Read` (461-463; QuicRelay, Relay; 3/3), `SendOnlyStream.CancelRead` (465-466; Relay; 2/2), `SendOnlyStream.SetReadDeadline` (468-470; Relay; 3/3), `SendOnlyStream.SetDeadline` (472-474; Relay; 3/3), `ReceiveOnlyStream.Write` (481-483; Relay; 3/3), `ReceiveOnlyStream.Close` (485-487; Relay; 3/3), `ReceiveOnlyStream.CancelWrite` (489-490; Relay; 2/2), `ReceiveOnlyStream.Context` (492-494; Relay; 3/3), `ReceiveOnlyStream.SetDeadline` (496-498; Relay; 3/3), `ReceiveOnlyStream.SetWriteDeadline` (500-502; Relay; 3/3), `QUICStream.BridgeAddr` (522-526; Locks, Races; 5/5), `QUICStream.SetBridgeAddr` (528-532; Locks, Races; 5/5), `QUICStream.markReadDone` (542-549; Locks, QuicConn, Races; 8/8), `QUICStream.markWriteDone` (551-558; Locks, QuicConn, Races; 8/8), `QUICStream.Read` (560-573; Bandwidth, QuicConn, Relay; 14/14), `QUICStream.Write` (575-588; Bandwidth, QuicConn, Relay; 14/14), `QUICStream.Close` (590-594; QuicConn, Relay; 5/5), `QUICStream.CancelRead` (596-599; QuicConn, Relay; 4/4), `QUICStream.CancelWrite` (601-604; QuicConn, Relay; 4/4), `QUICStream.CloseRead` (606-609; QuicConn, Relay; 4/4), `QUICStream.CloseWrite` (611-613; QuicConn, Relay; 3/3)
* proxy/internal/ocspcache/ocsp.go: `OCSPCache.load` (90-102; Ocsp; 13/13), `OCSPCache.flush` (117-132; Ocsp; 16/16), `OCSPCache.VerifyChains` (134-187; Ocsp, OcspSig; 54/54), `OCSPCache.Response` (194-204; Ocsp; 11/11), `OCSPCache.fetchOCSP` (206-223; Ocsp; 18/18), `OCSPCache.fetchOneOCSP` (225-252; Ocsp, OcspSig; 28/28)
* proxy/internal/oidc/client.go: `New` (109-147; Locks, Signpost; 39/39), `ProviderClient.RequestLogin` (149-202; Defaults, Locks, Oidc, Queries, Races, Signpost; 54/54), `ProviderClient.HandleCallback` (204-359; Locks, Oidc, Queries, Races; 156/156)
* proxy/internal/oidc/server.go: `ProviderServer.vacuum` (146-160; Locks, Oidc, Races; 15/15), `ProviderServer.ServeConfig` (162-223; Caching, Discovery, RelyingParty; 62/62), `ProviderServer.ServeAuthorization` (225-336; Locks, Oidc, Queries, Races, Token; 112/112), `ProviderServer.ServeToken` (338-400; Caching, Locks, Oidc, Races, RelyingParty; 63/63), `ProviderServer.ServeUserInfo` (402-451; Caching, Locks, Oidc, Races, RelyingParty; 50/50), `ProviderServer.applyRewriteRules` (453-487; Token; 35/35)
* proxy/internal/passkeys/manager.go: `Manager.SetACL` (166-168; Enrol; 3/3), `Manager.vacuum` (170-179; Locks, Passkey, Races; 10/10), `Manager.ServeWellKnown` (183-208; Caching; 26/26), `Manager.RequestLogin` (210-256; Ceremony, Locks, Login, Queries, Races; 47/47), `Manager.HandleCallback` (258-494; Ceremony, Cookies, Locks, Login, Passkey, Queries, Races, Token; 237/237), `serveWebauthnJS` (496-510; Caching; 15/15), `Manager.ManageKeys` (512-660; Ceremony, Locks, Login, Passkey; 149/149), `Manager.keys` (670-697; Locks, Races; 28/28), `Manager.subjectIsAllowed` (699-705; Endpoints, Enrol, Passkey; 7/7), `Manager.subjectIsRegistered` (707-716; Ceremony, Locks; 10/10), `Manager.deleteKey` (718-744; Locks, Passkey; 27/27), `Manager.setAuthToken` (746-776; Cookies, Passkey; 31/31), `Manager.attestationOptions` (778-826; Ceremony, Locks, Passkey; 49/49), `Manager.processAttestation` (828-921; Assertion, ByteArrays, Ceremony, Locks, Passkey; 94/94), `Manager.assertionOptions` (923-954; Ceremony, Locks, Passkey; 32/32), `Manager.processAssertion` (956-1044; Assertion, ByteArrays, Locks, Passkey; 89/89)
* proxy/internal/passkeys/webauthn.go: `Bytes.MarshalJSON` (55-60; ByteArrays; 6/6), `newAttestationOptions` (98-123; Assertion; 12/26), `parseAuthenticatorData` (221-269; Authdata; 49/49), `signedBytes` (277-283; Assertion; 7/7), `verifySignature` (286-350; Assertion; 65/65)
* proxy/internal/pki/clientwasm/impl/impl.go: `MakeCSR` (54-79; ClientKeys, PemRead, Possession; 26/26), `MakeResponse` (81-129; ClientKeys; 49/49)
* proxy/internal/pki/clientwasm/main.go: `makeCSR` (58-89; ClientKeys, CrossSite; 32/32), `makeResponse` (91-116; ClientKeys; 5/26)
* proxy/internal/pki/http.go: `PKIManager.ServeCACert` (77-100; Caching, Locks, Pem, Races; 24/24), `PKIManager.ServeCRL` (103-122; Caching, Locks; 20/20), `PKIManager.ServeOCSP` (126-185; Caching, Locks, OcspHttp; 60/60), `PKIManager.ServeCertificateManagement` (187-342; CrossSite, Locks, Pki, PkiPage, Races; 156/156), `PKIManager.handleRequestCert` (344-409; CrossSite, Locks, PemRead, Pki, Possession; 66/66), `PKIManager.handleRevokeCert` (411-457; Locks, Pki, PkiPage; 47/47), `PKIManager.handleDownloadCert` (459-476; Locks, PkiPage; 18/18), `PKIManager.handleStaticFile` (478-509; Caching, Locks; 32/32), `PKIManager.findCert` (511-527; Caching, Locks, Pki, Races; 17/17), `etag` (529-539; Caching; 11/11)
* proxy/internal/pki/keys/keys.go: `GenerateKey` (38-75; ClientKeys; 38/38)
* proxy/internal/pki/pki.go: `New` (128-144; KeyTypes, PkiKeys; 17/17), `certificate.parse` (176-186; PkiCache; 11/11), `certificate.pem` (188-193; Caching, Pem; 6/6), `certificate.revoke` (195-200; Pki; 6/6), `PKIManager.open` (212-222; PkiCache, PkiKeys; 11/11), `PKIManager.initCA` (224-316; KeyTypes, Locks, Pki, PkiKeys; 93/93), `PKIManager.generateKey` (318-378; KeyTypes; 61/61), `PKIManager.parseKeyBytes` (380-385; KeyTypes; 6/6), `PKIManager.maybeRotateDelegateCert` (387-455; Caching, KeyTypes, Pki, PkiCache, PkiKeys, Races; 69/69), `PKIManager.RevocationListPEM` (458-473; Pem; 16/16), `PKIManager.RevocationList` (476-569; Locks, Pki, PkiCache, PkiKeys; 94/94), `PKIManager.IsRevoked` (572-580; Locks, Pki, Races; 9/9), `PKIManager.OCSPResponse` (583-676; KeyTypes, Locks, Pki, PkiCache, PkiKeys; 94/94), `PKIManager.RevokeCertificate` (680-710; Locks, Pki, PkiKeys; 31/31), `PKIManager.CACert` (713-721; Locks, Races; 9/9), `PKIManager.ValidateCertificateRequest` (725-734; Possession; 10/10), `PKIManager.IssueCertificate` (737-769; Pki, PkiKeys; 33/33), `PKIManager.signCertificate` (772-821; Locks, Pki, PkiCache, PkiKeys, Races; 50/50), `publicKeyFromCert` (823-832; Locks; 2/10), `bytesToHex` (834-840; Pki; 7/7)
* proxy/internal/saml/saml.go: `New` (84-106; Follow; 1/23), `Provider.RequestLogin` (108-149; Locks, Queries, Races; 42/42), `Provider.HandleCallback` (151-261; Locks, Queries, Races, Saml, SamlDoc; 111/111), `readCerts` (263-286; Follow, PemRead, Saml; 24/24), `findElementText` (288-294; SamlDoc; 7/7), `findElementAttr` (296-306; SamlDoc; 11/11), `samlAuthnRequest.URL` (325-350; Queries, Signpost; 26/26)
* proxy/internal/sshca/sshca.go: `New` (90-109; KeyTypes; 20/20), `SSHCA.initCA` (133-175; KeyTypes, Locks, Races; 43/43), `SSHCA.generateKey` (177-235; KeyTypes; 59/59), `SSHCA.parseKeyBytes` (237-242; KeyTypes; 6/6), `SSHCA.ServePublicKey` (244-256; Caching, Locks, Races; 13/13), `SSHCA.ServeCertificate` (258-343; Caching, CrossSite, Locks, Races, Sshca; 86/86)
* proxy/internal/tokenmanager/tokenmanager.go: `New` (100-114; Keys; 15/15), `TokenManager.rotateKeys` (130-191; Keys, Locks, Races; 62/62), `TokenManager.createNewTokenKeys` (193-218; Keys; 26/26), `TokenManager.CreateToken` (331-372; Keys, Locks, Races, Sign; 42/42), `tpmSigningMethod.Sign` (378-415; Sign; 38/38), `TokenManager.getKey` (417-426; Keys, Locks, Races, Sign; 10/10), `TokenManager.ValidateToken` (429-432; Sign, Token; 4/4), `TokenManager.ServeJWKS` (453-508; Caching, Jwks, Locks, Races; 56/56)
* proxy/internal/tokenmanager/urltoken.go: `sessionID` (43-62; Cookies, Login, Token; 20/20), `TokenManager.URLToken` (65-81; Login, Signpost, Token; 17/17), `TokenManager.ValidateURLToken` (85-104; Audit, Login, Token; 20/20)
* proxy/logging.go: `Proxy.logConnF` (38-43; Logging, Races; 6/6), `Proxy.logError` (45-50; Logging, Races; 6/6), `Proxy.logErrorF` (52-57; Logging, Races; 6/6), `Backend.logConnF` (59-64; Logging; 6/6), `Backend.logRequestF` (66-71; Logging; 6/6), `Backend.logErrorF` (73-78; Logging, Reconf; 6/6), `Backend.logError` (80-85; Logging; 6/6), `shouldLog` (87-114; Logging; 28/28)
* proxy/metrics.go: `Proxy.recordEvent` (59-66; Locks, Memory, Races; 8/8), `Proxy.setCounters` (72-100; Locks, Memory, Races, Tally; 29/29), `Proxy.metricsHandler` (102-596; Console, Layers, Locks, Races, Tally; 495/495), `Proxy.faviconHandler` (598-603; Caching; 6/6)
* proxy/nopprof.go: `addPProfHandlers` (28-29; Endpoints; 2/2)
* proxy/pprof.go: `addPProfHandlers` (33-41; Audit, Endpoints; 9/9)
* proxy/proxy.go: `eventRecorder.Record` (161-163; Memory; 3/3), `New` (171-229; Acme, PlainHttp, Restart; 59/59), `Proxy.Reconfigure` (281-863; Acme, Audit, Bandwidth, Config, ConnTracker, CrossSite, Discovery, Dispatch, EndToEnd, Endpoints, Enrol, Follow, Handoff, Lifecycle, Locks, LogLines, Logging, Memory, OcspSig, Races, Reconf, Restart, Resume, ServerAuth, Signpost; 583/583), `Proxy.reAuthorize` (865-901; Handoff, Locks, Memory, Reconf; 37/37), `Proxy.Start` (905-939; PlainHttp, Restart, Spin; 35/35), `Proxy.acceptLoop` (949-963; Halt, Spin; 15/15), `Proxy.Stop` (966-993; Halt, Handoff, Locks, Races; 28/28), `Proxy.Shutdown` (997-1030; Lifecycle, Locks, Races; 34/34), `Proxy.baseTLSConfig` (1032-1079; Acme, Certs, Locks, Memory, Ocsp, Races; 48/48), `Proxy.getCertFromConfig` (1081-1103; Certs, Locks, Races; 23/23), `Proxy.acceptProxyHeader` (1105-1118; Front, Locks, Races; 14/14), `Proxy.handleConnection` (1120-1216; Acme, Bandwidth, ConnTracker, Dispatch, EndToEnd, Front, Halt, Handoff, Layers, Lifecycle, Locks, LogLines, Memory, Netw, Numbers, Patience, PlainHttp, Races, Reload, Resume, Tally; 97/97), `Proxy.checkIP` (1220-1230; Acme, Dispatch, Halt, LogLines, Memory, Reload; 11/11), `Proxy.handleACMEConnection` (1232-1241; Dispatch, Halt, LogLines, Patience, Reload; 10/10), `Proxy.authorizeTLSConnection` (1243-1287; Dispatch, Halt, Layers, LogLines, Memory, Patience, Reload; 45/45), `Proxy.handleHTTPConnection` (1289-1317; Dispatch, EndToEnd, Halt, Handoff, Lifecycle, LogLines, Memory, Numbers, Rate; 29/29), `Proxy.handleTLSConnection` (1319-1362; Dispatch, Halt, LogLines, Memory, Relay, Same; 44/44), `Proxy.handleTLSPassthroughConnection` (1364-1400; Dispatch, Halt, LogLines, Memory, Relay; 37/37), `Proxy.defaultServerName` (1402-1406; Locks, Races; 5/5), `Proxy.backend` (1408-1430; Config, Handoff, Lifecycle, Locks, Races; 23/23), `formatReqDesc` (1432-1444; Audit, LogLines; 13/13), `formatConnDesc` (1446-1487; Layers, LogLines; 42/42), `setKeepAlive` (1489-1500; Layers; 12/12), `loadCerts` (1502-1516; Follow, ServerAuth; 15/15), `hostFromReq` (1518-1524; Http; 7/7), `hostAndPath` (1527-1540; Config, Endpoints; 14/14), `certSummary` (1542-1560; LogLines; 19/19), `guessIDP` (1562-1573; Signpost; 12/12)
* proxy/quic.go: `Proxy.startQUIC` (59-99; Acme, Dispatch, Locks, LogLines, Races, Restart, Resume; 41/41), `Proxy.quicAcceptLoop` (101-115; Dispatch, Spin; 15/15), `Proxy.handleQUICConnection` (117-357; Acme, Bandwidth, ConnTracker, Dispatch, EndToEnd, Handoff, Layers, Locks, LogLines, Memory, Netw, QuicRelay, Races, Rate, Resume, Same, Sockets, Spin, Tally; 241/241), `Proxy.handleQUICTCPStream` (359-409; Dispatch, EndToEnd, Handoff, Layers, LogLines, Memory, Relay, Same; 51/51), `Backend.handleQUICQUICStream` (411-464; Layers, LogLines, Memory, QuicRelay, Relay; 54/54), `Backend.dialQUIC` (466-484; Sockets; 19/19), `Backend.dialQUICStream` (486-496; Sockets; 11/11), `Backend.dialQUICBackend` (498-580; Bandwidth, EndToEnd, Locks, OcspSig, Pool, Races, ServerAuth, Sockets, Tally; 83/83), `Backend.http3Transport` (582-593; Bandwidth, Pool, Replies, Sockets, Tally; 12/12), `http3Server` (595-606; Rate; 1/12)
* proxy/revoke.go: `Proxy.RevokeAllCertificates` (46-103; RevokeAll; 58/58), `Proxy.revokeUnusedCertificates` (105-164; Defaults, Locks, Races, Revoke; 60/60), `Proxy.acmeAccountKey` (166-188; RevokeAll; 23/23), `Proxy.acmeAllCerts` (190-252; PemRead, Revoke, RevokeAll; 63/63), `parseRevocationReason` (254-267; RevokeAll; 14/14), `parsePrivateKey` (269-283; RevokeAll; 15/15)
* proxy/unix.go: `openFileLimit` (32-42; Numbers; 11/11)
* proxy/util.go: `netwConn` (39-48; Layers; 10/10), `annotatedConn` (66-75; Layers, Rate; 10/10), `connMode` (109-117; Layers; 9/9), `formatSize10` (154-165; Tally; 12/12), `isProxyProtoConn` (167-178; Layers; 12/12), `localNetConn` (180-193; Layers; 14/14)
* proxy/websocket.go: `newWebSocketUpgrader` (37-42; CrossSite; 6/6), `Proxy.webSocketHandler` (44-156; CrossSite, Layers, Races, WebSocket; 113/113)
* proxy/xfcc.go: `addXFCCHeader` (38-76; Xfcc; 33/39), `encodeXFCCSubject` (78-97; Xfcc; 20/20), `encodeXFCC` (99-106; Xfcc; 8/8)
* tlsclient/main.go: `main` (47-169; OcspSig; 27/123)

## Code that is not modelled

**Test certificate manager, command line tools and process start-up.** certmanager/certmanager.go: `New`, `createRootKeyAndCert`, `CertManager.RootCAPEM`, `CertManager.RootCACertPool`, `CertManager.TLSConfig`, `CertManager.GetCertificate`, `CertManager.GetCert`, `CertManager.HTTPHandler`; main.go: `main`.

**Start-up, loading and periodic loops; the step they repeat is modelled.** main.go: `configLoop`; proxy/config.go: `Config.serialize`, `Config.equal`; proxy/internal/ocspcache/ocsp.go: `New`, `OCSPCache.FlushLoop`; proxy/internal/oidc/server.go: `NewServer`; proxy/internal/passkeys/manager.go: `NewManager`; proxy/internal/sshca/sshca.go: `SSHCA.open`; proxy/internal/tokenmanager/tokenmanager.go: `TokenManager.KeyRotationLoop`; proxy/proxy.go: `Proxy.ctxWait`.

**Static content.** proxy/backend-sso.go: `init`; proxy/internal/passkeys/manager.go: `init`; proxy/internal/pki/http.go: `init`.

**Accessors and wrappers without decisions; the state they read or write is in the models of their callers.** proxy/conntracker.go: `newConnTracker`; proxy/internal/idp/idp.go: `LoginOptions.LoginHint`, `LoginOptions.SelectAccount`, `WithLoginHint`, `WithSelectAccount`, `ApplyOptions`; proxy/internal/netw/netw.go: `Listen`, `listener.Accept`, `NewConn`, `newCounter`; proxy/internal/netw/quic.go: `NewQUIC`, `QUICTransport.Addr`, `QUICTransport.Close`, `QUICTransport.Listen`, `QUICTransport.Dial`, `QUICTransport.DialEarly`, `QUICListener.Accept`, `QUICListener.Addr`, `QUICListener.Close`, `newQUICConn`, `QUICConn.SetLimiters`, `QUICConn.SetCounters`, `QUICConn.BytesSent`, `QUICConn.BytesReceived`, `QUICConn.ByteRateSent`, `QUICConn.ByteRateReceived`, `QUICConn.HandshakeComplete`, `QUICConn.NextConnection`, `QUICConn.TLSConnectionState`, `QUICConn.Read`, `QUICConn.Write`, `QUICConn.SetDeadline`, `QUICConn.LocalAddr`, `QUICConn.RemoteAddr`, `QUICConn.ConnectionState`, `QUICConn.CloseWithError`, `QUICConn.Context`, `QUICConn.SendDatagram`, `QUICConn.ReceiveDatagram`, `QUICStream.streamID`, `QUICStream.LocalAddr`, `QUICStream.RemoteAddr`; proxy/util.go: `connServerNameIsSet`, `connServerName`, `connProto`, `connClientCert`, `connBackend`, `connIntConn`, `connProxyProto`, `connHTTPUpgrade`, `idnaToASCII`, `idnaToUnicode`.

**Test support.** proxy/internal/netw/netw.go: `NewConnForTest`; proxy/internal/passkeys/testutils.go: `NewFakeAuthenticator`, `FakeAuthenticator.SetOrigin`, `FakeAuthenticator.Create`, `FakeAuthenticator.Get`, `FakeAuthenticator.RotateKeys`, `fakeAuthKey.makeAuthData`, `es256CoseKey`, `rs256CoseKey`, `sign`; proxy/proxy.go: `NewTestProxy`.

**Build variants without QUIC / operating system limits.** proxy/internal/netw/noquic.go: `QUICStream.Dir`, `QUICStream.BridgeAddr`, `QUICConn.Streams`, `QUICConn.Annotation`, `QUICConn.SetAnnotation`, `QUICConn.BytesSent`, `QUICConn.BytesReceived`, `QUICConn.ByteRateSent`, `QUICConn.ByteRateReceived`; proxy/noquic.go: `Proxy.startQUIC`, `Backend.dialQUICStream`, `Backend.http3Transport`, `http3Server`; proxy/otheros.go: `openFileLimit`.

**Key generation, signatures and encodings (parameters of the model).** proxy/internal/ocspcache/ocsp.go: `certHash`; proxy/internal/passkeys/webauthn.go: `newAssertionOptions`, `parseAttestationObject`, `parseClientData`; proxy/internal/pki/pki.go: `wipe`; proxy/internal/tokenmanager/tokenmanager.go: `createNewECDSATokenKey`, `TokenManager.createNewTPMECDSATokenKey`, `createNewRSATokenKey`, `TokenManager.createNewTPMRSATokenKey`, `createNewED25519TokenKey`.

**Logging, metrics and formatting of text for people.** proxy/internal/oidc/server.go: `defaultLogger.Errorf`; proxy/internal/passkeys/manager.go: `defaultLogger.Errorf`; proxy/internal/pki/pki.go: `defaultLogger.Errorf`; proxy/internal/sshca/sshca.go: `defaultLogger.Errorf`; proxy/internal/tokenmanager/tokenmanager.go: `defaultLogger.Errorf`; proxy/logging.go: `Proxy.extLogger`, `Backend.extLogger`, `logger.Debug`, `logger.Debugf`, `logger.Info`, `logger.Infof`, `logger.Error`, `logger.Errorf`, `logger.Fatal`, `logger.Fatalf`; proxy/metrics.go: `init`; proxy/proxy.go: `unwrapErr`.

**Not modelled yet.** proxy/internal/pki/clientwasm/main.go: `main`, `Uint8ArrayFromBytes`.

Also not modelled: `examples`, HTML templates, and JavaScript but for the service worker of the certificate page.

## Axioms per theorem

**none**: `QuicRelay.settings_partial`, `PkiCache.verifies_violated`, `Sockets.stays_listed`, `Pem.der_partial`, `Counter.counter_rate_violated`, `Logging.first_set`, `WebSocket.ws_halfclose_violated`, `Hello.alerts_wellformed`, `Ocsp.staple_violated`

**`Quot.sound`**: `Sockets.closed_violated`

**`propext`**: `Netw.writes_exact`, `Netw.inflight_restored_violated`, `Redirect.redirect_method`, `OcspHttp.ocsp_method`, `OcspHttp.ocsp_no_slash`, `RevokeAll.parsed_nil`, `Dispatch.handshake_done`, `Pool.home_unique`, `Relay.orderly_violated`, `Relay.oneway_violated`, `Relay.delivered_violated`, `Relay.ends_partial`, `Relay.ends_violated`, `Relay.timer_violated`, `QuicRelay.oneway_back`, `QuicRelay.late_data_ends`, `QuicRelay.settings_violated`, `Resume.resumed_cert`, `Handoff.alive_violated`, `Handoff.stop_ends_serving`, `Handoff.dead_final`, `Handoff.stream_of_open`, `Handoff.handed_over`, `Handoff.death`, `PkiKeys.signatures_verify`, `PkiKeys.key_wiped`, `PkiKeys.expired_delegate_violated`, `PkiKeys.panic_violated`, `PkiKeys.ca_expired_violated`, `Rate.rate_first_requests_violated`, `PkiCache.verifies_partial`, `PkiCache.restart_repairs`, `PkiCache.verifies_violated_general`, `Races.no_race_violated`, `OcspSig.answer_signed_partial`, `OcspSig.client_root_violated`, `OcspSig.Example.fetched_other_violated`, `Lifecycle.raw_backend_close_violated`, `Lifecycle.handoff_never_panics_violated`, `Caching.ca_pem_complete`, `Caching.ca_der_partial`, `Caching.answered`, `Follow.invalid_kept`, `Follow.trust_taken_partial`, `Follow.trust_violated`, `Layers.no_panic`, `Layers.addresses`, `Layers.tracked`, `Layers.keepalive_iff`, `Layers.bridged_line`, `Layers.stream_line_violated`, `Layers.stream_line_partial`, `Layers.request_line_partial`, `Layers.request_line_violated`, `Layers.upgrade_line`, `Layers.server_line`, `Layers.unnamed_line`, `Lifecycle.shutdown_terminates_violated`, `Lifecycle.shutdown_ignores_raw_violated`, `Numbers.accepted`, `Assertion.bound`, `Halt.stop_ends`, `PlainHttp.idle_violated`, `PlainHttp.timeout_helps`, `Signpost.hostname_brackets`, `Enrol.rule`, `Enrol.everybody_violated`, `Keys.signing_key_available_violated`, `Ocsp.verify_accepts`, `Ocsp.Spec.Vouched.mem`, `Ocsp.relied_violated`, `Ocsp.staple_short`, `Logging.proxy_logs`, `WebSocket.ws_progress`, `WebSocket.ws_returns`, `WebSocket.ws_failure`, `Lifecycle.http3_closed_violated`, `Lifecycle.http3_closed_partial`

**`Quot.sound`, `propext`**: `Hello.hello_total_violated`, `Hello.hello_total_partial`, `Hello.hello_lookahead_bounded`, `Hello.hello_only_first_record`, `Hello.hello_lookahead_exact`, `Netw.peek_transparent`, `Netw.reads_are_prefix`, `Netw.peek_shows_next`, `Netw.peek_bounded`, `Dispatch.negotiated`, `Dispatch.unknown_name_alert`, `Dispatch.dialed_iff`, `Dispatch.http_iff`, `Dispatch.passthrough_failure_iff`, `ConnTracker.maxopen_never_exceeded`, `ConnTracker.maxopen_reachable_violated`, `ConnTracker.maxopen_usable_partial`, `Netw.callback_at_most_once`, `OcspHttp.ocsp_post`, `OcspHttp.ocsp_bad_letter`, `RevokeAll.revoke_all_run`, `RevokeAll.revoke_all_partial`, `RevokeAll.revoke_all_no_requests`, `RevokeAll.revoke_all_broken_violated`, `Discovery.split_authority`, `Dispatch.acl_exact`, `Reload.reload_routed_partial`, `Reload.reload_accepted`, `Reload.reload_all`, `Reload.recorded_served`, `Reload.reload_named_violated`, `Relay.close_both`, `Relay.half_close`, `Relay.half_close_refused`, `Relay.recv_unwritten`, `Relay.after_end`, `Dispatch.revoked_refused_violated`, `Dispatch.verifyConnection_exact`, `Relay.ends_quic_partial`, `QuicRelay.client_gone_iff`, `QuicRelay.client_gone_partial`, `QuicRelay.server_gone_ignored`, `QuicRelay.late_stream_hangs`, `QuicRelay.together_violated`, `QuicRelay.direction_end`, `Resume.tickets_shown`, `Resume.quic_own_cas_partial`, `Resume.quic_own_cas_violated`, `Resume.chain_now_violated`, `Resume.authorized_ticket`, `Resume.quic_ticket`, `Handoff.in_use_partial`, `Handoff.swallowed_forever`, `Handoff.alive_partial`, `Handoff.served_or_closed_violated`, `Handoff.late_stream_violated`, `PkiKeys.ca_current_partial`, `Dial.roundrobin_in_range`, `Rate.rate_admitted`, `Dispatch.limited_not_served`, `Dispatch.quic_limited_not_served`, `Locks.steps_bounded`, `Locks.mutual_exclusion`, `Locks.ssh_stalled_violated`, `Locks.cacert_stalled_violated`, `Locks.pki_page_stalled_violated`, `Locks.reload_stalled_violated`, `Locks.console_stalled_violated`, `Locks.stop_dead_violated`, `Memory.passkey_logins_partial`, `Memory.passkey_logins_violated`, `Dial.dial_tries_all_violated`, `Patience.hello_bounded`, `Patience.held_partial`, `Patience.held_forever_iff`, `Patience.held_violated`, `Patience.handshake_required`, `Patience.http_bounded`, `Patience.http_prompt`, `Patience.http_slow`, `Patience.http_idle`, `Races.no_race_partial`, `Races.no_race_elsewhere`, `ClientKeys.names_exact`, `ClientKeys.names_split`, `OcspSig.relied_signed_partial`, `OcspSig.forged_kept_violated`, `OcspSig.client_accepts`, `OcspSig.client_forged_violated`, `OcspSig.client_issuer_violated`, `Sockets.failed_tidy_partial`, `Sockets.returned_in_use`, `Sockets.closed_tidy_partial`, `Sockets.failed_violated`, `Sockets.listed_partial`, `Sockets.ghost_violated`, `Lifecycle.chan_closed_once`, `Lifecycle.no_new_after_close`, `Caching.confirmed_current`, `Caching.same_confirmed`, `Caching.crl_error_violated`, `Caching.ocsp_in_date`, `Caching.crl_late_partial`, `Caching.crl_late_violated`, `Caching.delegate_known_partial`, `Caching.delegate_violated`, `Caching.ca_der_violated`, `Caching.delegate_stays`, `Layers.console_partial`, `Layers.console_violated`, `Sign.long_refused`, `Sign.element_strict`, `Sign.integer_strict`, `Dispatch.hidden_acme_violated`, `Same.dials_partial`, `Lifecycle.shutdown_waits`, `Lifecycle.shutdown_terminates_partial`, `Lifecycle.shutdown_deadline`, `Lifecycle.shutdown_open`, `Assertion.register_iff`, `Assertion.login_iff`, `Halt.served`, `Halt.accept_loop`, `PlainHttp.answered_gone`, `Tally.bytes_counted`, `Tally.sections`, `Bridge.reset_ends_both`, `Bridge.timeout_ends_both`, `Bridge.closed_ends_both`, `Spin.goes_on`, `Spin.spin_violated`, `Spin.forever_violated`, `Spin.http_waits`, `Spin.http_goes_on`, `Spin.http_doubles`, `Pem.der_violated`, `Dial.header_first`, `Reconf.reauth_keeps_permitted`, `Reconf.reauth_early_phase_violated`, `Reconf.reauth_acl_added_violated`, `Reconf.reauth_cert_demanded_violated`, `Path.pathClean_canonical`, `Xfcc.header_roundtrip`, `Xfcc.subject_injective_partial`, `Token.token_times`, `Keys.select_spec`, `Keys.signing_algorithm`, `Counter.counter_window`, `Ocsp.no_servers_accepted`, `Ocsp.relied_weak_partial`, `Ocsp.staple_ignored`, `Authdata.parse_no_panic`, `Authdata.parse_encode`, `Authdata.truncated_extension_violated`, `Logging.backend_logs`, `QuicConn.streams_marked`, `QuicConn.streams_exact_partial`, `QuicConn.recv_only_violated`, `QuicConn.timeout_violated`, `QuicConn.callback_replaced_violated`, `QuicConn.callback_not_early`, `WebSocket.ws_closed`, `Dispatch.quic_admission_violated`, `Ocsp.staple_partial`, `Ocsp.flush_mem`, `Saml.readCerts_partial`, `Saml.readCerts_violated`, `Saml.readCerts_spec`, `Login.login_return_partial`, `Login.login_nonce`, `Login.login_browser_partial`, `Login.forget_ends`, `Login.login_host_partial`

**`Classical.choice`, `Quot.sound`, `propext`**: `Hello.hello_roundtrip`, `Hello.hello_exact`, `Config.routing_violated`, `Config.routing_partial`, `Config.refused_iff_undeclared`, `Config.pair_declared_once`, `Config.noALPN_name_fresh`, `Config.order_irrelevant`, `Dispatch.undeclared_name_alert`, `Dispatch.ip_rules`, `Dispatch.no_contact_before_checks`, `ConnTracker.tracker_drains`, `Netw.callback_exactly_once`, `Netw.inflight_restored_partial`, `Netw.inflight_unannotated`, `Cookies.login_cookies_exact`, `Cookies.login_where`, `Cookies.logout_ends_partial`, `Cookies.logout_exact`, `Cookies.logout_ends_violated`, `Cookies.login_recognised_partial`, `Cookies.login_recognised_violated`, `Redirect.redirect_same_host`, `Redirect.redirects_end_partial`, `Redirect.redirects_end_violated`, `Cookies.session_exact`, `Cookies.id_token_exact`, `Cookies.nonce_exact`, `OcspHttp.ocsp_get_url`, `OcspHttp.ocsp_get_forms`, `OcspHttp.ocsp_bad_escape`, `OcspHttp.ocsp_get_partial`, `OcspHttp.ocsp_get_violated`, `RevokeAll.revoke_all_succeeds`, `RevokeAll.revoke_all_violated`, `RevokeAll.revoke_all_ok_iff`, `Jwks.jwks_lax`, `Jwks.jwks_partial`, `Jwks.says_unique`, `Jwks.jwks_violated`, `Discovery.discovery_partial`, `Discovery.discovery_issuer_partial`, `Discovery.discovery_violated`, `Dispatch.acl_no_confusion`, `Discovery.alt_svc_exact`, `Discovery.alt_svc_bad_port`, `Discovery.alt_svc_response`, `Pool.own_connection_partial`, `Pool.header_missing_violated`, `Pool.protocol_configured`, `Front.front_admission`, `Front.untrusted_header`, `Front.front_passthrough`, `Certs.match_exact`, `Certs.match_error`, `Certs.certificate_configured`, `Certs.certificate_managed`, `Reload.reload_served_partial`, `Reload.reload_passthrough_violated`, `Reload.reload_handshake_violated`, `Reload.reload_violated`, `ServerAuth.connect_iff`, `ServerAuth.server_authenticated`, `ServerAuth.request_settings`, `ServerAuth.build_spec`, `ServerAuth.plain_iff`, `ServerAuth.reachable_partial`, `ServerAuth.check_build`, `ServerAuth.nameless_violated`, `ServerAuth.nameless_unreachable`, `SamlDoc.handle_iff`, `SamlDoc.token_iff`, `SamlDoc.claims_iff`, `SamlDoc.comments_ignored`, `SamlDoc.login_user`, `SamlDoc.source_partial`, `SamlDoc.source_violated`, `Relay.orderly_partial`, `Relay.delivered_partial`, `Relay.arrived_prefix`, `Dispatch.revoked_refused_partial`, `Dispatch.revoked_refused_noh3_partial`, `Relay.timer_partial`, `QuicRelay.opened_iff`, `Resume.tcp_own_cas`, `Resume.tcp_as_full_partial`, `Resume.tcp_revoked_ticket`, `PkiPage.listed_iff`, `PkiPage.listed_order`, `PkiPage.revoke_allowed`, `PkiPage.revoke_agrees`, `PkiPage.revoke_offered_iff`, `PkiPage.login_needed`, `PkiPage.buttons_work_partial`, `PkiPage.offered_revoke_violated`, `PkiPage.offered_view_violated`, `PkiPage.ca_revocable_violated`, `PkiPage.download_iff`, `PkiPage.static_iff`, `PkiPage.denied_iff`, `PkiPage.internal_iff`, `Handoff.never_released`, `Handoff.closed_chan_drained`, `EndToEnd.tcp_checked_partial`, `EndToEnd.quic_checked_partial`, `EndToEnd.login_honoured`, `EndToEnd.quic_mode`, `EndToEnd.quic_served`, `Acme.handshake_partial`, `Acme.handshake_proper_partial`, `Acme.client_certificate_partial`, `Acme.client_certificate_violated`, `Acme.handshake_default_violated`, `Acme.quic_denied_violated`, `PkiKeys.answers_current_partial`, `Ceremony.forged_no_steps`, `Ceremony.forged_harmless`, `Ceremony.forged_ignored`, `Ceremony.pages_unframed`, `Dial.roundrobin_fair`, `Pool.rotation_shared`, `Ceremony.no_panic`, `Ceremony.done_iff`, `Ceremony.refresh_iff`, `Ceremony.addkey_answer`, `Ceremony.register_stored`, `Ceremony.delete_answer_partial`, `Ceremony.delete_answer_violated`, `Ceremony.register_page_true`, `Ceremony.login_page`, `Ceremony.other_login`, `Ceremony.nonce_exchange`, `Ceremony.refusals`, `Ceremony.keys_page`, `Ceremony.manage_hint`, `Ceremony.manage_elsewhere`, `Ceremony.manage_reachable_partial`, `Ceremony.manage_unreachable`, `Ceremony.manage_reachable_violated`, `Ceremony.offered`, `Ceremony.registration_offered`, `Ceremony.pending_kept`, `Ceremony.login_works`, `Ceremony.register_iff`, `Ceremony.registration_iff`, `Ceremony.port_blocks_registration`, `Ceremony.registration_violated`, `Http.configured_header`, `Http.hop_by_hop_removed`, `Http.other_headers`, `Http.expand_pieces`, `Http.variable_value`, `Http.email_header_unforgeable`, `Http.user_id_equivalent`, `Http.host_told_partial`, `Http.host_told_violated`, `Rate.rate_forwarded_partial`, `Rate.rate_forwarded_violated`, `Http.rate_limited`, `Locks.no_deadlock_partial`, `Locks.rest_partial`, `LogLines.request_line_partial`, `LogLines.path_line_iff`, `LogLines.url_faithful`, `LogLines.conn_line_partial`, `LogLines.conn_text_iff`, `LogLines.request_forged_violated`, `LogLines.static_forged_violated`, `LogLines.quic_name_forged_violated`, `LogLines.quic_reason_forged_violated`, `LogLines.quote_read`, `LogLines.name_read`, `LogLines.agent_read`, `LogLines.attributed`, `LogLines.agent_short`, `Memory.events_bounded`, `Memory.events_counted`, `Memory.server_bounded`, `Memory.passkey_bounded`, `Memory.oidc_logins_partial`, `Memory.oidc_logins_violated`, `Memory.saml_logins_partial`, `Memory.saml_logins_violated`, `Dial.dial_tries_all_partial`, `Dial.dial_fails_only_if_all_down_partial`, `Dial.dial_attempt_count`, `Dial.dial_destination`, `Wire.line_kept`, `Wire.target_kept`, `Wire.no_second_meaning`, `Wire.body_partial`, `Wire.body_iff`, `Wire.body_violated`, `Patience.slow_refused`, `Patience.prompt_heard`, `CrossSite.no_effect_partial`, `CrossSite.passkeys_untouched_partial`, `CrossSite.logout_violated`, `CrossSite.worker_violated`, `CrossSite.own_request`, `CrossSite.own_revoke`, `CrossSite.own_socket`, `CrossSite.needs_login`, `CrossSite.covered_needs_login`, `ClientKeys.package_own`, `ClientKeys.keys_not_shared`, `ClientKeys.forgotten_partial`, `ClientKeys.forgotten_violated`, `ClientKeys.key_lost_violated`, `ClientKeys.package_made`, `ClientKeys.kind_asked`, `ClientKeys.file_name`, `ClientKeys.kind_exact`, `ClientKeys.blank_exact`, `ClientKeys.request_exact`, `OcspSig.staple_forged_violated`, `OcspSig.client_partial`, `Replies.complete_partial`, `Replies.whole_delivered`, `Replies.truncated_violated`, `Replies.decoded_violated`, `Replies.status_kept`, `Replies.headers_kept_partial`, `Replies.hop_removed`, `Replies.own_kept`, `Replies.nobody_complete`, `Replies.unrecovered`, `Replies.unrecovered_decoded`, `Replies.none_empty`, `Restart.like_restart_partial`, `Restart.accepted_same`, `Restart.settings_of_start`, `Restart.quic_off_violated`, `Restart.quic_on_violated`, `Restart.account_violated`, `Restart.limit_violated`, `Restart.quic_first`, `Restart.advertised`, `Restart.advertises`, `Lifecycle.chan_close_waits`, `Lifecycle.chan_closes_when_drained`, `Lifecycle.handoff_never_panics_partial`, `Caching.through_cache_partial`, `Caching.personal_fresh`, `Caching.errors_current_partial`, `Caching.status_violated`, `Caching.jwks_copy_good_partial`, `Caching.jwks_copy_violated`, `Follow.in_force`, `Follow.picked_up`, `Follow.trust_inline_partial`, `Queries.login_arrives_partial`, `Queries.login_query_violated`, `Queries.login_fragment_violated`, `Queries.saml_arrives`, `Queries.saml_keeps_partial`, `Queries.saml_document`, `Queries.code_arrives`, `Queries.code_keeps_partial`, `Queries.own_violated`, `Queries.round_trip`, `Queries.token_request`, `Queries.passkey_arrives`, `Queries.escape_read`, `Queries.saml_text`, `Queries.authorize_known`, `Sign.fill_octets`, `Sign.der_read`, `Sign.sign_right`, `Sign.accepted_iff`, `Sign.made_accepted`, `Sign.other_algorithms`, `Sign.one_meaning`, `Sign.other_text`, `Sign.long_read`, `Dispatch.hidden_partial`, `Dispatch.hidden_quic_violated`, `Http.local_partial`, `Http.local_violated`, `Config.local_check_partial`, `Config.local_check_violated`, `Same.dials_violated`, `Audit.one_line_partial`, `Audit.unlogged_violated`, `Audit.failed_unlogged_violated`, `Audit.line_names`, `Audit.refusal_logged`, `Audit.told_status`, `Audit.login_unlogged_violated`, `Audit.own_unlogged_violated`, `Audit.blind_partial`, `Audit.query_hidden_partial`, `Audit.query_logged_violated`, `Audit.session_logged_violated`, `Audit.session_quiet`, `Audit.session_missing`, `Defaults.written_partial`, `Defaults.quic_close_violated`, `Defaults.effective_partial`, `Defaults.effective_top`, `Defaults.override_effective`, `Defaults.header_effective`, `Bandwidth.bound_partial`, `Bandwidth.bound_total`, `Bandwidth.prompt`, `Bandwidth.pile_violated`, `Bandwidth.small_reads_violated`, `Bandwidth.zero_violated`, `Bandwidth.call_fails_iff`, `Numbers.works_partial`, `Numbers.works_iff`, `Numbers.open_violated`, `Numbers.last_violated`, `Numbers.rate_violated`, `Numbers.timeout_violated`, `Numbers.reauth_violated`, `Numbers.round_violated`, `Numbers.once`, `Numbers.works_violated`, `Assertion.accepted_iff`, `Assertion.ec_partial`, `Assertion.rsa_violated`, `Assertion.algorithm`, `Assertion.usable_partial`, `Assertion.usable_violated`, `Assertion.unknown_violated`, `RelyingParty.exchange_partial`, `RelyingParty.basic_violated`, `RelyingParty.info_partial`, `RelyingParty.again_violated`, `RelyingParty.expires_violated`, `Halt.nothing_relayed`, `Halt.none_accepted`, `Halt.all_end`, `KeyTypes.ssh_partial`, `KeyTypes.pki_partial`, `KeyTypes.tpm_violated`, `KeyTypes.ssh_kept`, `KeyTypes.ssh_restarts`, `KeyTypes.ssh_failed`, `KeyTypes.pki_restarts`, `KeyTypes.pki_failed`, `KeyTypes.ocsp_answers`, `KeyTypes.case_violated`, `KeyTypes.default_type`, `KeyTypes.tpm_refuses`, `PlainHttp.secrets_safe`, `PlainHttp.data_only`, `PlainHttp.challenge_answered`, `PlainHttp.others`, `PlainHttp.same_host`, `PlainHttp.same_host_port`, `PlainHttp.unlimited_violated`, `Signpost.link_partial`, `Signpost.link_violated`, `Signpost.target_right`, `Signpost.text_beginning`, `Signpost.host_shown`, `Signpost.unreadable_violated`, `Signpost.named_partial`, `Signpost.named_saml`, `Signpost.unnamed_violated`, `Signpost.misnamed_violated`, `ByteArrays.written`, `ByteArrays.array_read`, `ByteArrays.one_array`, `ByteArrays.to_browser`, `ByteArrays.challenge_known`, `ByteArrays.to_server`, `ByteArrays.stored`, `ByteArrays.only_bytes`, `Tally.page_counts`, `Tally.size_close`, `Tally.size_order`, `Enrol.register_partial`, `Enrol.order_violated`, `Bridge.relay_prefix`, `Bridge.relay_complete`, `Bridge.relay_ends_both`, `Bridge.deadline_only_half_closed`, `Bridge.half_close_independent`, `Pem.ca_file`, `Pem.crl_file`, `Pem.read_once`, `Pem.block_read`, `Pem.file_read`, `Pem.roundtrip`, `Pem.root_read`, `Pem.root_missing`, `Possession.possession`, `Possession.own_request`, `Possession.other_violated`, `Reconf.failed_reconf_partial`, `Reconf.failed_reconf_limits_partial`, `Reconf.failed_reconf_violated`, `Reconf.failed_reconf_not_undone_violated`, `Reconf.failed_reconf_unlimited`, `Reconf.limits_by_name_partial`, `Reconf.limits_upper_violated`, `Reconf.limits_overwrite_violated`, `Reconf.reauth_exact_partial`, `Reconf.reauth_crash_iff`, `Reconf.reauth_removed_name_violated`, `Path.pathClean_good`, `Http.static_confined`, `Http.static_serve_confined`, `Http.static_unclean_redirected`, `Http.sso_enforced`, `Http.sso_admits`, `Http.no_path_bypass`, `Http.acl_exact`, `Http.acl_empty`, `Http.acl_at_sign_violated`, `Dispatch.sso_every_config_violated`, `Dispatch.sso_http_modes_partial`, `Http.force_reauth`, `Http.user_id_unforgeable`, `Http.user_id_delivered_partial`, `Http.user_id_delivered_violated`, `Http.forwarded_unforgeable`, `Xfcc.header_unambiguous`, `Xfcc.subject_slash_violated`, `Http.misdirected_not_forwarded`, `Http.misdirected_only`, `Http.no_loop_partial`, `Http.loop_cut`, `Http.loop_violated`, `Http.cookies_removed_partial`, `Http.cookies_removed_violated`, `Http.pool_not_shared`, `Http.override_forward`, `Http.override_static_partial`, `Http.override_no_addresses_violated`, `Http.endpoint_most_specific`, `Http.endpoint_not_forwarded`, `Http.hsts`, `Token.identity_partial`, `Token.login_cookie_partial`, `Token.login_cookie_rewrite_violated`, `Token.bearer_partial`, `Token.bearer_provider_violated`, `Token.id_cookie_partial`, `Token.id_cookie_refreshed`, `Token.new_id_token_accepted`, `Token.id_cookie_violated`, `Http.id_token_current`, `Token.id_token_made`, `Token.url_token_roundtrip`, `Token.url_token_partial`, `Token.url_token_saml_violated`, `Keys.signing_key_available_partial`, `Keys.token_verifiable_partial`, `Keys.token_verifiable_violated`, `Keys.signs_with_published_key`, `Token.reserved_claims`, `Counter.counter_value_exact`, `Counter.counter_rate_partial`, `Counter.counter_made_iff`, `Netw.counters_exact`, `Console.console_hides_secrets`, `Console.console_text`, `Console.console_preserves_config`, `Ocsp.fetch_first`, `Ocsp.revoked_not_whitewashed`, `Ocsp.revoked_leaf_refused`, `Ocsp.relied_partial`, `Ocsp.staple_used`, `Oidc.Client.login_sound`, `Oidc.Client.login_partial`, `Oidc.Client.login_nonce_violated`, `Oidc.Client.login_identity`, `Oidc.Client.logins_acceptable`, `Oidc.Client.identityOk_spec`, `Oidc.Client.login_granted`, `Oidc.Server.code_exchange`, `Oidc.Server.exchange_request`, `Oidc.Server.redirect_registered`, `Oidc.Server.codes_to_registered`, `Oidc.Server.exchange_uri_partial`, `Oidc.Server.exchange_uri_violated`, `Oidc.Server.userinfo_once`, `Saml.saml_login_partial`, `Saml.saml_window_violated`, `Saml.accept_spec`, `Saml.saml_login_posted`, `Passkey.challenge_fresh`, `Passkey.challenge_single_use`, `Passkey.key_added_only`, `Passkey.second_key_only_managed`, `Passkey.login_identity`, `Passkey.cookie_named`, `Passkey.login_iff`, `Passkey.open_failure`, `Passkey.login_relying_party_partial`, `Passkey.login_origin_violated`, `Authdata.parse_exact`, `Authdata.truncated_refused_partial`, `Passkey.key_removed_only`, `Pki.serial_text_injective_partial`, `Pki.serial_text_violated`, `Pki.revoke_affects_one`, `Pki.revocation_permanent`, `Pki.check_revoked_only`, `Pki.crl_complete_partial`, `Pki.crl_sound`, `Pki.crl_numbers`, `Pki.crl_current_violated`, `Pki.crl_complete_violated`, `Pki.crl_no_reason`, `Pki.issued_identity`, `Pki.issued_cn_owner`, `Pki.issued_dns_verbatim`, `Pki.issued_usage`, `Pki.request_granted`, `Pki.open_failure`, `Pki.sign_failure`, `Pki.revoke_authorized_partial`, `Pki.revoke_twice_violated`, `Pki.ocsp_good_partial`, `Pki.ocsp_other_issuer`, `Pki.ocsp_negative_violated`, `Sshca.ssh_cert`, `Sshca.ssh_cert_body`, `Sshca.ssh_cert_iff`, `Sshca.ssh_status`, `Revoke.revoke_unused_partial`, `Revoke.revoke_unused_static`, `Revoke.revoke_disabled`, `Revoke.revoke_deleted_partial`, `Revoke.account_key_kept`, `Revoke.revoke_reconfigured_violated`, `Revoke.revoke_kept_violated`, `Revoke.revoke_complete`, `Revoke.revoke_failure`, `Config.proxy_version_violated`, `Config.proxy_version_partial`, `Config.provider_domain_violated`, `Config.provider_domain_partial`, `Config.accepted_consistent`, `QuicConn.callback_at_most`, `QuicConn.callback_exactly_once`, `QuicConn.quiet_done`, `QuicConn.work_decreases`, `WebSocket.ws_prefix`, `WebSocket.ws_complete_partial`, `Config.passkey_check_violated`, `Config.passkey_delegation`, `Config.sni_case_violated`, `Config.sni_case_partial`, `Dispatch.quic_admission_partial`, `Dispatch.quic_service`, `Ocsp.nil_only_without_servers`, `Ocsp.cache_survives_restart`, `Saml.saml_browser_partial`, `Saml.saml_browser_violated`, `Passkey.login_refreshed_partial`, `Passkey.registration_refreshed_violated`, `Config.check_iff`, `Config.normal_form`, `Config.normal_form_top`, `Config.check_idempotent`, `Token.login_token_exact`, `Token.id_token_exact`, `Token.oidc_token_exact`, `Reconf.reconf_accepted_iff`, `Reconf.reconf_applied`, `Reconf.reconf_same`, `Reconf.retired_history`, `Endpoints.table_exact`, `Endpoints.served_configured`, `Endpoints.endpoint_answers_partial`, `Endpoints.endpoint_answers_violated`, `Endpoints.passkey_acl_partial`, `Endpoints.passkey_acl_violated`, `Login.login_completes`, `Login.login_browser_violated`, `Login.login_host_violated`
