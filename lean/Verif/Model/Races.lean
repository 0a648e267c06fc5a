import Verif.Model.Locks

/-!
# Who reads and writes shared data, and under which locks

The data that more than one goroutine uses and that changes after it is shared, with the locks that are
there to protect it, and every function that reads or writes it: which locks it takes, and what it
reads and writes while it has them, in the order of the code. A function that reads or writes something
in some runs only is described by a run that does. Data that is written only before other goroutines
can see it (the fields of a `Backend` that `Reconfigure` sets before it stores the map, the options of
the managers, `Proxy.ctx`, `listener` and `quicTransport`, which `Start` sets before it starts the
goroutines that use them), and data with locks of its own (the rate limiters, the cache of OCSP
responses, channels), is left out. So is waiting: see `Verif.Model.Locks`.

Functions that call one another without holding a lock are separate calls here: a goroutine makes any
sequence of calls.
-/

namespace Verif.Races

open Verif.Locks (Cls Lock)

inductive Loc where
  /-- `Proxy.cfg` (proxy.go:113) -/
  | cfg
  /-- the field `Backends` of the configuration that `Proxy.cfg` points to -/
  | cfgBackends
  /-- `Proxy.defServerName` -/
  | serverName
  /-- `Proxy.backends` -/
  | backends
  /-- `Proxy.pkis` -/
  | pkis
  /-- `Proxy.metrics` -/
  | metrics
  /-- `Proxy.bwLimits` -/
  | bwLimits
  /-- `Proxy.events` -/
  | events
  /-- `Backend.state` and `Backend.httpServer` -/
  | state (be : Nat)
  /-- `Backend.http3Server` -/
  | http3 (be : Nat)
  /-- `connTracker.conns` -/
  | tracked (t : Nat)
  /-- `Conn.annotations`, `Conn.onClose` -/
  | conn (c : Nat)
  /-- `QUICConn.annotations`, `QUICConn.onClose`, `QUICConn.streams` -/
  | quicConn (c : Nat)
  /-- `QUICStream.readDone`, `writeDone`, `bridgeAddr` -/
  | stream (s : Nat)
  /-- the slots of a `Counter` -/
  | slots (k : Nat)
  /-- `proxyListener.closed` -/
  | closed (n : Nat)
  /-- `ProviderClient.states` -/
  | oidcStates (p : Nat)
  /-- `ProviderServer.codes`, `ProviderServer.accessTokens` -/
  | oidcCodes (s : Nat)
  /-- `Provider.states` -/
  | samlStates (p : Nat)
  /-- `Manager.db`, `Manager.challenges` -/
  | passkeys (m : Nat)
  /-- `Manager.nonces` -/
  | nonces (m : Nat)
  /-- `PKIManager.db`, with the certificates in it -/
  | pkiDb (m : Nat)
  /-- `certificate.cert`, the parsed certificates in `PKIManager.db` -/
  | parsed (m : Nat)
  /-- `SSHCA.db`, `SSHCA.signer` -/
  | sshKey (ca : Nat)
  /-- `TokenManager.keys` -/
  | tokenKeys
  /-- `lastActive` of a WebSocket -/
  | active (ws : Nat)
  deriving DecidableEq, Repr

inductive Code where
  | skip
  | read (x : Loc)
  | write (x : Loc)
  /-- a critical section; `true` is `Lock`, `false` is `RLock` -/
  | crit (l : Lock) (excl : Bool) (body : Code)
  | seq (a b : Code)
  deriving Repr

def seqs : List Code → Code
  | [] => .skip
  | c :: cs => .seq c (seqs cs)

/-- `mu.Lock()` … `mu.Unlock()`. -/
def hold (c : Cls) (n : Nat) (body : List Code) : Code := .crit ⟨c, n⟩ true (seqs body)

/-- `p.mu.RLock()` … `p.mu.RUnlock()`. -/
def share (body : List Code) : Code := .crit ⟨.proxy, 0⟩ false (seqs body)

/-- The functions. -/
inductive Call where
  | log | recordEvent | setCounters | setCountersAgain (k : Nat)
  | incInFlight (be : Nat) | closeBackend (be : Nat) | nextAddress (be : Nat) | lookup (be : Nat)
  | serveH3 (be : Nat) | altSvc (be : Nat)
  | defaultServerName | certFromConfig | acceptProxyHeader | configForClient | acceptTOS | tooMany
  | slice (t : Nat) | track (t : Nat)
  | annotate (c : Nat) | annotation (c : Nat) | annotateQuic (c : Nat) | annotationQuic (c : Nat)
  | markDone (s c : Nat) | bridgeAddr (s : Nat) | setBridgeAddr (s : Nat)
  | value (k : Nat) | incr (k : Nat) | closeListener (n : Nat)
  | revokeUnused | reconfigure (bes : List Nat) | stop (bes : List Nat) | shutdown (bes : List Nat)
  | console (counters conns streams : List Nat)
  | oidcLogin (p : Nat) | oidcCallback (p : Nat) | oidcServe (s : Nat)
  | samlLogin (p : Nat) | samlCallback (p : Nat)
  | passkeyRead (m : Nat) | passkeyWrite (m : Nat) | nonce (m : Nat)
  | rotateDelegate (m : Nat) | pkiUpdate (m : Nat) | isRevoked (m : Nat) | pkiParse (m : Nat)
  | sshInit (ca : Nat) | sshServe (ca : Nat)
  | rotateKeys | useKeys
  | pong (ws : Nat) | ping (ws : Nat)
  deriving DecidableEq, Repr

/-- metrics.go:59-66. -/
def recordEvent : Code := hold .events 0 [.read .events, .write .events]

/-- logging.go:38-57 `logConnF`, `logError` and `logErrorF`: there is no lock. -/
def log : Code := .read .cfg

/-- backend.go:55-81. -/
def closeBackend (be : Nat) : Code := hold .backend be [.read (.state be), .write (.state be), .read (.http3 be), .write (.http3 be)]

/-- conntracker.go:45-53. -/
def slice (t : Nat) : Code := hold .tracker t [.read (.tracked t)]

/-- netw.go:131-139. -/
def annotation (c : Nat) : Code := hold .conn c [.read (.conn c)]

/-- counter.go:68-101. `Rate` and `Incr` move the slots. -/
def value (k : Nat) : Code := hold .counter k [.read (.slots k), .write (.slots k)]

/-- netw/quic.go:522-526. -/
def bridgeAddr (s : Nat) : Code := hold .quicStream s [.read (.stream s)]

/-- netw/quic.go:171-185: `Annotation` and `Streams`. -/
def annotationQuic (c : Nat) : Code := hold .quicConn c [.read (.quicConn c)]

/-- netw/quic.go:160-169, 187-193, 251-270, 355-432: `SetAnnotation`, `removeStream`, `OnClose`, `Close`,
`AcceptStream` and the like. -/
def annotateQuic (c : Nat) : Code := hold .quicConn c [.read (.quicConn c), .write (.quicConn c)]

/-- pki.go:772-817 `signCertificate`, 224-316 `initCA`, 679-711 `RevokeCertificate`, 481-569
`RevocationList` and 591-677 `OCSPResponse` after `maybeRotateDelegateCert`: `OpenForUpdate` reads the file
into `m.db`, and `parse` keeps the parsed certificate. -/
def pkiUpdate (m : Nat) : Code := hold .pki m [.read (.pkiDb m), .write (.pkiDb m), .read (.parsed m), .write (.parsed m)]

/-- proxy.go:966-992 `Stop`. -/
def stop (bes : List Nat) : Code :=
  seqs [hold .proxy 0 [.read .cfg, .read .cfgBackends, .write .cfgBackends, slice 0], seqs (bes.map closeBackend)]

def code : Call → Code
  | .log => log
  | .recordEvent => recordEvent
  /- metrics.go:71-100 `setCounters`, for a server name that has no metrics yet -/
  | .setCounters => seqs [share [.read .metrics], hold .proxy 0 [.read .metrics, .write .metrics]]
  /- metrics.go:73-81, for one that has -/
  | .setCountersAgain k => share [.read .metrics, value k]
  /- backend.go:44-53 -/
  | .incInFlight be => hold .backend be [.read (.state be), .write (.state be)]
  | .closeBackend be => closeBackend be
  /- backend.go:134-142, quic.go:547-555 -/
  | .nextAddress be => hold .backend be [.read (.state be), .write (.state be)]
  /- proxy.go:1408-1430 `backend` -/
  | .lookup be => share [.read .backends, hold .backend be [.read (.state be)]]
  /- quic.go:210: which server gets an HTTP/3 connection; there is no lock -/
  | .serveH3 be => .read (.http3 be)
  /- backend-http.go:397-403: the header Alt-Svc; there is no lock -/
  | .altSvc be => .read (.http3 be)
  /- proxy.go:1402-1406 -/
  | .defaultServerName => share [.read .serverName]
  /- proxy.go:1081-1103 `getCertFromConfig` -/
  | .certFromConfig => share [.read .cfg]
  /- proxy.go:1105-1118 -/
  | .acceptProxyHeader => share [.read .cfg]
  /- quic.go:74-84 `GetConfigForClient` -/
  | .configForClient => share [.read .backends, log]
  /- proxy.go:1046: `AcceptTOS` in `GetCertificate`; there is no lock -/
  | .acceptTOS => .read .cfg
  /- proxy.go:1154-1156, quic.go:169-171: `MaxOpen`; there is no lock -/
  | .tooMany => .read .cfg
  | .slice t => slice t
  /- conntracker.go:55-72 `add` and `remove` -/
  | .track t => hold .tracker t [.read (.tracked t), .write (.tracked t)]
  /- netw.go:118-129, 175-181, 233-236: `SetAnnotation`, `OnClose`, `Close` -/
  | .annotate c => hold .conn c [.read (.conn c), .write (.conn c)]
  | .annotation c => annotation c
  | .annotateQuic c => annotateQuic c
  | .annotationQuic c => annotationQuic c
  /- netw/quic.go:542-558 `markReadDone` and `markWriteDone` -/
  | .markDone s c => hold .quicStream s [.read (.stream s), .write (.stream s), annotateQuic c]
  | .bridgeAddr s => bridgeAddr s
  /- netw/quic.go:528-532 -/
  | .setBridgeAddr s => hold .quicStream s [.write (.stream s)]
  | .value k => value k
  | .incr k => value k
  /- http.go:86-98 -/
  | .closeListener n => hold .listener n [.read (.closed n), .write (.closed n)]
  /- revoke.go:105-115 `revokeUnusedCertificates`: the first line has no lock -/
  | .revokeUnused => seqs [.read .cfg, hold .proxy 0 [.read .cfg, .read .cfgBackends]]
  /- proxy.go:280-863 `Reconfigure`, with the old backends; `cfg.equal` looks at the old configuration
  without the lock -/
  | .reconfigure bes => seqs [share [.read .cfg], .read .cfgBackends,
      hold .proxy 0 [.read .cfg, log, recordEvent, .read .bwLimits, .write .bwLimits, .read .cfgBackends,
        seqs (bes.map closeBackend), .write .serverName, .write .backends, .write .pkis, .write .cfg]]
  | .stop bes => stop bes
  /- proxy.go:996-1030 `Shutdown` -/
  | .shutdown bes => seqs [hold .proxy 0 [.read .cfg, .read .cfgBackends, seqs (bes.map closeBackend)],
      hold .proxy 0 [slice 0], stop bes]
  /- metrics.go:235-594 `metricsHandler` -/
  | .console counters conns streams => share [.read .metrics, seqs (counters.map value), hold .events 0 [.read .events],
      slice 0, seqs (conns.map fun c => seqs [annotation c, annotationQuic c]), seqs (streams.map bridgeAddr), slice 1,
      .read .cfg, .read .cfgBackends, log]
  /- oidc/client.go:169-176 -/
  | .oidcLogin p => hold .oidcClient p [.write (.oidcStates p)]
  /- oidc/client.go:208-220, 306-309 -/
  | .oidcCallback p => seqs [hold .oidcClient p [.read (.oidcStates p), .write (.oidcStates p)],
      hold .oidcClient p [.read (.oidcStates p), .write (.oidcStates p)]]
  /- oidc/server.go:146-160, 313-326, 366-369, 415-418 -/
  | .oidcServe s => seqs [hold .oidcServer s [.read (.oidcCodes s), .write (.oidcCodes s)],
      hold .oidcServer s [.read (.oidcCodes s), .write (.oidcCodes s)]]
  /- saml.go:120-126 -/
  | .samlLogin p => hold .saml p [.write (.samlStates p)]
  /- saml.go:190-200 -/
  | .samlCallback p => hold .saml p [.read (.samlStates p), .write (.samlStates p)]
  /- passkeys/manager.go:670-697 `keys`, 707-716 `subjectIsRegistered` -/
  | .passkeyRead m => hold .passkey m [.read (.passkeys m)]
  /- passkeys/manager.go:170-181 `vacuum`, 718-744 `deleteKey`, 797-826 `attestationOptions`, 854-921
  `processAttestation`, 929-954 `assertionOptions`, 987-1045 `processAssertion` -/
  | .passkeyWrite m => hold .passkey m [.read (.passkeys m), .write (.passkeys m)]
  /- passkeys/manager.go:226-232, 262-271 -/
  | .nonce m => hold .nonces m [.read (.nonces m), .write (.nonces m)]
  /- pki.go:387-414 `maybeRotateDelegateCert`, before `signCertificate`: there is no lock -/
  | .rotateDelegate m => seqs [.read (.pkiDb m), .read (.parsed m), .write (.parsed m)]
  | .pkiUpdate m => pkiUpdate m
  /- pki.go:571-580 -/
  | .isRevoked m => hold .pki m [.read (.pkiDb m)]
  /- pki.go:713-721 `CACert`, pki/http.go:77-101, 223-342, 511-527: `ServeCACert`, the list of
  certificates, `findCert` -/
  | .pkiParse m => hold .pki m [.read (.pkiDb m), .read (.parsed m), .write (.parsed m)]
  /- sshca.go:133-175 -/
  | .sshInit ca => hold .sshca ca [.read (.sshKey ca), .write (.sshKey ca)]
  /- sshca.go:244-343 `ServePublicKey` and `ServeCertificate` -/
  | .sshServe ca => hold .sshca ca [.read (.sshKey ca)]
  /- tokenmanager.go:163, 187-189: `rotateKeys` looks at the keys without the lock -/
  | .rotateKeys => seqs [.read .tokenKeys, hold .token 0 [.write .tokenKeys]]
  /- tokenmanager.go:331-372, 417-427, 453-488: `CreateToken`, `getKey` and `ServeJWKS` -/
  | .useKeys => hold .token 0 [.read .tokenKeys]
  /- websocket.go:80-83: the handler of answers, in the goroutine that reads; there is no lock -/
  | .pong ws => .write (.active ws)
  /- websocket.go:84-105: the goroutine that asks every ten seconds; there is no lock -/
  | .ping ws => .read (.active ws)

/-! ## Goroutines -/

inductive Act where
  | lock (l : Lock) (excl : Bool)
  | unlock (l : Lock)
  | access (x : Loc) (write : Bool)
  deriving DecidableEq, Repr

def compile : Code → List Act
  | .skip => []
  | .read x => [.access x false]
  | .write x => [.access x true]
  | .crit l excl body => .lock l excl :: (compile body ++ [.unlock l])
  | .seq a b => compile a ++ compile b

/-- A goroutine: what it has still to do, and the locks it has (`true`: alone). -/
structure Thread where
  todo : List Act
  held : List (Lock × Bool) := []
  deriving Repr

abbrev State := Nat → Thread

def set (s : State) (i : Nat) (t : Thread) : State := fun j => if j = i then t else s j

/-- Nobody else has the lock, or, to share it, nobody else has it alone. -/
def free (s : State) (i : Nat) (l : Lock) (excl : Bool) : Prop :=
  ∀ j, j ≠ i → ∀ e, (l, e) ∈ (s j).held → excl = false ∧ e = false

inductive Step (s : State) : State → Prop where
  | lock (i : Nat) (l : Lock) (e : Bool) (as : List Act) (h : (s i).todo = .lock l e :: as) (hf : free s i l e) :
      Step s (set s i ⟨as, (l, e) :: (s i).held⟩)
  | unlock (i : Nat) (l : Lock) (as : List Act) (h : (s i).todo = .unlock l :: as) :
      Step s (set s i ⟨as, (s i).held.filter fun p => p.1 ≠ l⟩)
  | access (i : Nat) (x : Loc) (w : Bool) (as : List Act) (h : (s i).todo = .access x w :: as) :
      Step s (set s i ⟨as, (s i).held⟩)

inductive Reach (s0 : State) : State → Prop where
  | refl : Reach s0 s0
  | step {s s' : State} : Reach s0 s → Step s s' → Reach s0 s'

/-- Any number of goroutines, each with its calls. -/
def start (prog : Nat → List Call) : State := fun i => ⟨(prog i).flatMap fun c => compile (code c), []⟩

end Verif.Races
