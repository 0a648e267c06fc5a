/-
The locks of the proxy, what is done while they are held, and threads that run such code: every
`sync.Mutex` and `sync.RWMutex` of the program, and the update locks of the files of the storage.

A function is described by its critical sections, in the order of the code: which locks it takes, what
it calls meanwhile, and where it waits for somebody else: a client that has to send or to read
something, a server that has to answer. Everything else is left out. Functions that take a lock in
some runs only are described by the run that takes most of them.
-/
namespace Verif.Locks

inductive Cls where
  /-- `Proxy.mu` (proxy.go:124), the only lock that readers share -/
  | proxy
  /-- `Backend.state.mu` (config.go:446) -/
  | backend
  /-- `Proxy.eventsmu` (proxy.go:137) -/
  | events
  /-- `connTracker.mu` (conntracker.go:41): `inConns` and `outConns` -/
  | tracker
  /-- `netw.Conn.mu` (netw.go:97) -/
  | conn
  /-- `netw.QUICConn.mu` (netw/quic.go:149) -/
  | quicConn
  /-- `netw.QUICStream.mu` (netw/quic.go:512) -/
  | quicStream
  /-- `Counter.mu` (counter.go:61) -/
  | counter
  /-- `proxyListener.mu` (http.go:68) -/
  | listener
  /-- `ProviderClient.mu` (oidc/client.go:96) -/
  | oidcClient
  /-- `ProviderServer.mu` (oidc/server.go:135) -/
  | oidcServer
  /-- `Provider.mu` (saml.go:74) -/
  | saml
  /-- `Manager.mu` (passkeys/manager.go:147) -/
  | passkey
  /-- `Manager.noncesMu` (passkeys/manager.go:150) -/
  | nonces
  /-- `PKIManager.mu` (pki.go:151) -/
  | pki
  /-- `SSHCA.mu` (sshca.go:115) -/
  | sshca
  /-- `TokenManager.mu` (tokenmanager.go:95) -/
  | token
  /-- a file of the storage between `OpenForUpdate` and `commit` -/
  | file
deriving DecidableEq, Repr

/-- A lock: its kind, and which one of the kind. -/
structure Lock where
  cls : Cls
  n : Nat
deriving DecidableEq, Repr

/-- Code as far as locks and waiting are concerned. -/
inductive Code where
  | skip
  /-- waits for a client or a server -/
  | peer
  /-- `quic.Transport.Close`, which waits until every connection has ended, handshakes included -/
  | quicClose
  /-- a critical section; `true` is `Lock`, `false` is `RLock` -/
  | crit (l : Lock) (excl : Bool) (body : Code)
  | seq (a b : Code)
deriving Repr

def seqs : List Code → Code
  | [] => .skip
  | c :: cs => .seq c (seqs cs)

/-- `mu.Lock()` … `mu.Unlock()`. -/
def hold (c : Cls) (n : Nat) (body : List Code) : Code := .crit ⟨c, n⟩ true (seqs body)

/-- `p.mu.RLock()` … `p.mu.RUnlock()`. -/
def share (body : List Code) : Code := .crit ⟨.proxy, 0⟩ false (seqs body)

/-! ## The proxy -/

/-- metrics.go:59-66. -/
def recordEvent : Code := hold .events 0 []

/-- counter.go:68-101: `Value`, `Incr` and `Rate`. -/
def count (k : Nat) : Code := hold .counter k []

/-- metrics.go:72-98 `setCounters`, for a server name that has no metrics yet. -/
def setCounters (k : Nat) : Code := seqs [share [], hold .proxy 0 [count k]]

/-- metrics.go:72-81 for a server name that has. -/
def setCountersAgain (k : Nat) : Code := share [count k]

/-- backend.go:44-53 `incInFlight`. -/
def incInFlight (be : Nat) : Code := hold .backend be []

/-- backend.go:55-81 `close`: what takes time runs in goroutines. -/
def closeBackend (be : Nat) : Code := hold .backend be []

/-- backend.go:134-163, quic.go:547-566: choose an address, and dial. -/
def dial (be : Nat) : Code := seqs [hold .backend be [], .peer]

/-- conntracker.go:45-72 `slice`, `add` and `remove`. `localNetConn` takes no lock. -/
def track (t : Nat) : Code := hold .tracker t []

/-- netw.go:118-139, 175-181: `SetAnnotation`, `Annotation`, `OnClose`. -/
def annotate (c : Nat) : Code := hold .conn c []

/-- netw/quic.go:160-192, 251-259, 305-307, 328-330, 355-432. -/
def annotateQuic (c : Nat) : Code := hold .quicConn c []

/-- netw.go:201-230 `Read` and `Write`. -/
def transfer (k up : Nat) : Code := seqs [.peer, count k, count up]

/-- netw.go:232-242 with the callback of proxy.go:1141-1153: the connection's lock is not held when the
callback runs. -/
def closeConn (c be k : Nat) : Code :=
  seqs [annotate c, track 0, annotate c, incInFlight be, annotate c, count k]

/-- netw/quic.go:261-270 with the callback of quic.go:130-140. -/
def closeQuic (c be k : Nat) : Code :=
  seqs [annotateQuic c, track 0, annotateQuic c, incInFlight be, annotateQuic c, count k]

/-- netw.go:232-242 with the callback of backend.go:174-176 or quic.go:567-569. -/
def closeOut (c : Nat) : Code := seqs [annotate c, track 1]

/-- netw/quic.go:542-558 `markReadDone` and `markWriteDone`. -/
def markDone (s c : Nat) : Code := hold .quicStream s [annotateQuic c]

/-- netw/quic.go:522-532 `BridgeAddr` and `SetBridgeAddr`. -/
def bridgeAddr (s : Nat) : Code := hold .quicStream s []

/-- http.go:86-98 `proxyListener.Close`. -/
def closeListener (n : Nat) : Code := hold .listener n []

/-- proxy.go:1402-1406, 1081-1103, 1105-1119 and quic.go:74-85: `defaultServerName`,
`getCertFromConfig`, `acceptProxyHeader` and `GetConfigForClient`. -/
def readConfig : Code := share []

/-- proxy.go:1408-1430 `backend`. -/
def lookup (be : Nat) : Code := share [hold .backend be []]

/-- revoke.go:105-164 `revokeUnusedCertificates`. -/
def revokeUnused : Code := seqs [hold .proxy 0 [], .peer]

/-- pki.go:571-579 `IsRevoked`, pki.go:713-720 `CACert`, pki/http.go:511-527 `findCert`. -/
def pkiRead (m : Nat) : Code := hold .pki m []

/-- pki.go:224-316, 476-569, 679-711, 772-824: `initCA`, `RevocationList`, `RevokeCertificate`,
`signCertificate`. -/
def pkiUpdate (m f : Nat) : Code := hold .pki m [hold .file f []]

/-- pki.go:581-677 `OCSPResponse`. -/
def ocspResponse (m f : Nat) : Code := seqs [pkiUpdate m f, hold .pki m []]

/-- sshca.go:133-175 `initCA`. -/
def sshInit (ca f : Nat) : Code := hold .sshca ca [hold .file f []]

/-- The callbacks of a TLS handshake: quic.go:74-85 (QUIC only), proxy.go:1036-1040 and 573-610. The
certificate may have to be fetched, and the status of the client's certificate too. -/
def handshake (be m : Nat) : Code :=
  seqs [readConfig, readConfig, readConfig, .peer, lookup be, pkiRead m, .peer, recordEvent]

/-- proxy.go:281-863 `Reconfigure`: for each OIDC provider, whether it has a discovery document, which
is fetched (oidc/client.go:109-132); the PKI managers and SSH CAs with their files; the old
backends. -/
def reconfigure (discover : List Bool) (pkis sshcas : List (Nat × Nat)) (old : List Nat) : Code :=
  seqs [share [],
    hold .proxy 0 [recordEvent,
      seqs (discover.map fun d => if d then .peer else .skip),
      hold .file 0 [],
      seqs (pkis.map fun m => pkiUpdate m.1 m.2),
      seqs (pkis.map fun m => pkiRead m.1),
      seqs (sshcas.map fun m => sshInit m.1 m.2),
      seqs (old.map closeBackend)]]

/-- proxy.go:865-901 `reAuthorize`; for each connection, its lock and its backend. -/
def reAuthorize (conns : List (Nat × Nat)) : Code :=
  seqs [track 0, seqs (conns.map fun c =>
    seqs [annotate c.1, lookup c.2, recordEvent, annotate c.1, closeConn c.1 c.2 0])]

/-- proxy.go:966-993 `Stop`. -/
def stop (quic : Bool) (bes : List Nat) (conns : List (Nat × Nat)) : Code :=
  seqs [hold .proxy 0 [if quic then .quicClose else .skip, track 0],
    seqs (bes.map closeBackend), seqs (conns.map fun c => closeConn c.1 c.2 0)]

/-- proxy.go:997-1033 `Shutdown`, with `n` rounds of the loop of the goroutine. `connClosed.Wait` gives
up the lock while it waits. -/
def shutdown (quic : Bool) (bes : List Nat) (conns : List (Nat × Nat)) (rounds : List (List Nat)) : Code :=
  seqs [hold .proxy 0 [if quic then .quicClose else .skip, seqs (bes.map closeBackend)],
    seqs (rounds.map fun cs => seqs [hold .proxy 0 [track 0, seqs (cs.map annotate)], .peer]),
    stop quic bes conns]

/-- A connection on the page of the console: its lock, its streams, its counters, and whether its
remote address is the one of a PROXY header that has not arrived. -/
structure Shown where
  conn : Nat
  streams : List Nat
  counter : Nat
  awaited : Bool
deriving Repr

/-- metrics.go:298-371: the address of a `proxyproto.Conn` is known when the header has been read, and
`RemoteAddr` waits for it. -/
def showConn (c : Shown) : Code :=
  seqs [annotate c.conn, if c.awaited then .peer else .skip, annotateQuic c.conn,
    seqs (c.streams.map bridgeAddr), count c.counter]

/-- metrics.go:102-596 `metricsHandler`. The page is sent after the lock is released (line 233). -/
def metricsHandler (counters : List Nat) (ins outs : List Shown) : Code :=
  seqs [share [seqs (counters.map count), hold .events 0 [], track 0, seqs (ins.map showConn),
    track 1, seqs (outs.map showConn)], .peer]

/-! ## Identity providers, certificates and tokens -/

/-- tokenmanager.go:130-191 `rotateKeys`. -/
def rotateKeys (f : Nat) : Code := hold .file f [hold .token 0 []]

/-- tokenmanager.go:331-372, 417-426: `CreateToken` and `getKey`. -/
def useKey : Code := hold .token 0 []

/-- tokenmanager.go:453-508 `ServeJWKS`. -/
def serveJWKS : Code := seqs [hold .token 0 [], .peer]

/-- oidc/client.go:149-202 `RequestLogin`. -/
def oidcLogin (p : Nat) : Code := seqs [hold .oidcClient p [], .peer, recordEvent]

/-- oidc/client.go:204-359 `HandleCallback`. -/
def oidcCallback (p : Nat) : Code :=
  seqs [recordEvent, .peer, hold .oidcClient p [], recordEvent, .peer, hold .oidcClient p [], useKey, .peer]

/-- oidc/server.go:146-160, 225-451: `ServeAuthorization`, `ServeToken` and `ServeUserInfo`. -/
def oidcServe (s : Nat) : Code :=
  seqs [hold .oidcServer s [], .peer, useKey, hold .oidcServer s [], recordEvent, .peer]

/-- saml.go:108-149 `RequestLogin`. -/
def samlLogin (p : Nat) : Code := seqs [hold .saml p [], .peer, recordEvent]

/-- saml.go:151-261 `HandleCallback`. -/
def samlCallback (p : Nat) : Code := seqs [recordEvent, .peer, hold .saml p [], recordEvent, useKey, .peer]

/-- passkeys/manager.go:210-256 `RequestLogin`. -/
def passkeyLogin (m : Nat) : Code := seqs [recordEvent, hold .nonces m [], .peer]

/-- passkeys/manager.go:170-181, 670-697, 707-716, 778-826, 923-954: `vacuum`, `keys`,
`subjectIsRegistered`, `attestationOptions`, `assertionOptions`. -/
def passkeyRead (m : Nat) : Code := hold .passkey m []

/-- passkeys/manager.go:718-744, 828-921, 956-1045: `deleteKey`, `processAttestation`,
`processAssertion`. -/
def passkeyUpdate (m f : Nat) : Code := seqs [passkeyRead m, hold .passkey m [hold .file f []]]

/-- passkeys/manager.go:258-494, 512-660: `HandleCallback` and `ManageKeys`. -/
def passkeyPage (m f : Nat) : Code :=
  seqs [.peer, hold .nonces m [], useKey, passkeyRead m, passkeyUpdate m f, useKey, recordEvent, .peer]

/-- pki/http.go:77-101 `ServeCACert`: the answer is written under the lock. It has the certificate of
the CA and up to two others, and may be longer than what `net/http` keeps back (4096 bytes). -/
def serveCACert (m : Nat) : Code := hold .pki m [.peer]

/-- pki/http.go:103-185: `ServeCRL` and `ServeOCSP`. -/
def serveCRL (m f : Nat) : Code := seqs [.peer, pkiUpdate m f, pkiUpdate m f, .peer]

/-- pki/http.go:187-342 `ServeCertificateManagement`, the list: the page is written under the lock. -/
def pkiPage (m : Nat) : Code := seqs [.peer, hold .pki m [.peer]]

/-- pki/http.go:344-489: `handleRequestCert`, `handleRevokeCert`, `handleDownloadCert`. -/
def pkiRequest (m f : Nat) : Code := seqs [.peer, pkiRead m, pkiUpdate m f, .peer]

/-- sshca.go:244-256 `ServePublicKey`. The answer is a short line, which `net/http` keeps until the
handler has returned. -/
def sshPublicKey (ca : Nat) : Code := seqs [hold .sshca ca [], .peer]

/-- sshca.go:258-343 `ServeCertificate`: the request's body is read under the lock (line 288). -/
def sshCertificate (ca : Nat) : Code := seqs [hold .sshca ca [.peer, recordEvent], .peer]

/-! ## Threads -/

inductive Act where
  | lock (l : Lock)
  | rlock (l : Lock)
  | unlock (l : Lock)
  | peer
  | quicClose
deriving DecidableEq, Repr

def acquire (l : Lock) (excl : Bool) : Act := if excl then .lock l else .rlock l

/-- What a thread does, step by step. -/
def compile : Code → List Act
  | .skip => []
  | .peer => [.peer]
  | .quicClose => [.quicClose]
  | .crit l excl body => acquire l excl :: (compile body ++ [.unlock l])
  | .seq a b => compile a ++ compile b

/-- A goroutine: what it has still to do, the locks it has (`true`: alone), whether it has called
`Lock` and waits, and whether it is the handshake of a QUIC connection. -/
structure Thread where
  todo : List Act
  held : List (Lock × Bool) := []
  waiting : Bool := false
  quic : Bool := false
deriving Repr

abbrev State := Nat → Thread

def set (s : State) (i : Nat) (t : Thread) : State := fun j => if j = i then t else s j

def holds (t : Thread) (l : Lock) : Prop := ∃ e, (l, e) ∈ t.held

/-- It has called `Lock` and waits: from then on nobody else gets the lock with `RLock`. -/
def announced (t : Thread) (l : Lock) : Prop := t.waiting = true ∧ t.todo.head? = some (.lock l)

def release (held : List (Lock × Bool)) (l : Lock) : List (Lock × Bool) := held.filter fun x => x.1 ≠ l

/-- A step that needs nothing from outside. -/
inductive Free (s : State) (i : Nat) : State → Prop
  | announce (l : Lock) (rest : List Act) (ht : (s i).todo = .lock l :: rest) (hw : (s i).waiting = false) :
    Free s i (set s i { s i with waiting := true })
  | lock (l : Lock) (rest : List Act) (ht : (s i).todo = .lock l :: rest) (hw : (s i).waiting = true)
    (hl : ∀ j, ¬ holds (s j) l) :
    Free s i (set s i { s i with todo := rest, held := (l, true) :: (s i).held, waiting := false })
  | rlock (l : Lock) (rest : List Act) (ht : (s i).todo = .rlock l :: rest)
    (hl : ∀ j, (l, true) ∉ (s j).held) (hw : ∀ j, ¬ announced (s j) l) :
    Free s i (set s i { s i with todo := rest, held := (l, false) :: (s i).held })
  | unlock (l : Lock) (rest : List Act) (ht : (s i).todo = .unlock l :: rest) :
    Free s i (set s i { s i with todo := rest, held := release (s i).held l })
  | quicClose (rest : List Act) (ht : (s i).todo = .quicClose :: rest)
    (hq : ∀ j, (s j).quic = true → (s j).todo = []) :
    Free s i (set s i { s i with todo := rest })

/-- Any step. -/
inductive Step (s : State) (i : Nat) : State → Prop
  | free {s' : State} (h : Free s i s') : Step s i s'
  | peer (rest : List Act) (ht : (s i).todo = .peer :: rest) : Step s i (set s i { s i with todo := rest })

/-- The steps made, by thread, and the state they lead to. -/
inductive Reach (s : State) : List Nat → State → Prop
  | refl : Reach s [] s
  | step {tr : List Nat} {s1 s2 : State} {i : Nat} (h : Reach s tr s1) (h2 : Step s1 i s2) : Reach s (i :: tr) s2

/-- Threads at the beginning: the functions each one calls, one after the other. -/
def start (calls : Nat → List Code) (quic : Nat → Bool) : State := fun i =>
  { todo := compile (seqs (calls i)), quic := quic i }

end Verif.Locks
