/-
Model of how backend servers are authenticated: the lists of CAs (`loadCerts` proxy/proxy.go:1502-1516, the
part of `Reconfigure` that fills the pools, proxy.go:566-586 and 661-697), the TLS parameters of `dial`
(proxy/backend.go:83-131, 148, 174) and `dialQUICBackend` (proxy/quic.go:498-544), and what crypto/tls and
quic-go do with them.

Simplifications: a certificate is its identity, serial number, key identifiers, and whether it names OCSP
servers. `hex.EncodeToString` of key identifiers is left out (it is injective). `x509.Certificate.Verify`,
the PEM reader and the file system are parameters. That a server which completes a handshake has the private
key of the first certificate it presents is TLS and not modelled.
-/
namespace Verif.ServerAuth

structure Cert where
  id : Nat
  serial : Int := 0
  /-- SubjectKeyId -/
  ski : String := ""
  /-- AuthorityKeyId -/
  aki : String := ""
  /-- `len(cert.OCSPServer) > 0` -/
  ocsp : Bool := false
deriving DecidableEq, Repr

/-- What the code is run with. -/
structure World where
  /-- the managers in the PKI section, by name (proxy.go:369-) -/
  pkis : String → Option Nat
  /-- `PKIManager.CACert`; `none` is an error -/
  ca : Nat → Option Cert
  /-- `os.ReadFile` -/
  file : String → Option String
  /-- the certificates that `AppendCertsFromPEM` finds in a text -/
  pem : String → List Cert
  /-- the roots used when `RootCAs` is nil -/
  system : List Cert
  /-- `Verify` with these roots and this DNS name, of the certificates presented: the chains found, none if
  it fails -/
  verify : List Cert → String → List Cert → List (List Cert)
  /-- the text of the IP address that an address of the configuration resolves to (`net.ResolveUDPAddr`) -/
  ip : String → String

/-- The state of affairs during one handshake: `PKIManager.IsRevoked`, and whether `VerifyChains` returns an
error for these chains. -/
structure Moment where
  revoked : Nat → Int → Bool
  ocspBad : List (List Cert) → Bool

/-- The fields of a backend (config.go:274-356) or path override (config.go:640-701). -/
structure Target where
  mode : String
  insecure : Bool := false
  serverName : String := ""
  rootCAs : List String := []
deriving DecidableEq, Repr

structure Backend where
  main : Target
  overrides : List Target := []
  /-- `ClientAuth.RootCAs` -/
  clientRoots : List String := []
deriving Repr

abbrev Pool := Option (List Cert)
abbrev PkiMap := List (String × Nat)

/-- `be.pkiMap[k] = m`; the latest entry is in front. -/
def PkiMap.set (m : PkiMap) (k : String) (v : Nat) : PkiMap := (k, v) :: m

/-- The text that an entry of a list stands for (proxy.go:1503-1511). -/
def readEntry (w : World) (s : String) : Option String :=
  if s.toList.head? = some '/' then w.file s else some s

/-- proxy.go:1502-1516 `loadCerts`: the new contents of the pool. -/
def loadCerts (w : World) (pool : List Cert) (s : String) : Option (List Cert) :=
  match readEntry w s with
  | none => none
  | some b => if (w.pem b).isEmpty then none else some (pool ++ w.pem b)

/-- The body of the loops of proxy.go:570-585, 661-677 and 679-695. -/
def addRoot (w : World) (st : Pool × PkiMap) (n : String) : Option (Pool × PkiMap) :=
  let pool := st.1.getD []
  match w.pkis n with
  | some m =>
    match w.ca m with
    | none => none
    | some ca => some (some (pool ++ [ca]), st.2.set ca.ski m)
  | none =>
    match loadCerts w pool n with
    | none => none
    | some p => some (some p, st.2)

/-- One of these loops. The pool is nil before. -/
def addRoots (w : World) : Pool × PkiMap → List String → Option (Pool × PkiMap)
  | st, [] => some st
  | st, n :: ns =>
    match addRoot w st n with
    | none => none
    | some st => addRoots w st ns

/-- proxy.go:678-696. -/
def addOverrides (w : World) : PkiMap → List Target → Option (List Pool × PkiMap)
  | m, [] => some ([], m)
  | m, o :: os =>
    match addRoots w (none, m) o.rootCAs with
    | none => none
    | some (p, m) =>
      match addOverrides w m os with
      | none => none
      | some (ps, m) => some (p :: ps, m)

structure Built where
  main : Pool
  overrides : List Pool
  pkiMap : PkiMap
deriving DecidableEq, Repr

/-- proxy.go:566-696, as far as lists of CAs are concerned; `none` if the configuration is refused. -/
def build (w : World) (be : Backend) : Option Built :=
  match addRoots w (none, []) be.clientRoots with
  | none => none
  | some (_, m) =>
    match addRoots w (none, m) be.main.rootCAs with
    | none => none
    | some (p, m) =>
      match addOverrides w m be.overrides with
      | none => none
      | some (ps, m) => some { main := p, overrides := ps, pkiMap := m }

/-- The checks of `Config.Check` on one list (config.go:1041-1049, 1089-1097, 1153-1161). -/
def checkList (w : World) (names : List String) : Bool :=
  names.all fun n => (w.pkis n).isSome || (loadCerts w [] n).isSome

def check (w : World) (be : Backend) : Bool :=
  checkList w be.clientRoots && checkList w be.main.rootCAs && be.overrides.all fun o => checkList w o.rootCAs

/-- The part of `tls.Config` that decides which servers are accepted (backend.go:109-114, quic.go:521-526). -/
structure TlsConfig where
  insecure : Bool
  serverName : String
  rootCAs : Pool
deriving Repr

/-- backend.go:84-104, 109-114 and quic.go:499-526: the parameters for a path override or for the backend
itself. An override that does not exist means the backend. -/
def tlsConfig (be : Backend) (b : Built) (slot : Option Nat) : TlsConfig :=
  match slot.bind fun i => be.overrides[i]? with
  | some o =>
    { insecure := o.insecure, serverName := o.serverName, rootCAs := (slot.bind fun i => b.overrides[i]?).getD none }
  | none => { insecure := be.main.insecure, serverName := be.main.serverName, rootCAs := b.main }

/-- backend.go:84-104: the mode. -/
def modeOf (be : Backend) (slot : Option Nat) : String :=
  match slot.bind fun i => be.overrides[i]? with
  | some o => o.mode
  | none => be.main.mode

/-- backend.go:115-131, quic.go:527-543 `VerifyConnection`: whether it returns nil. -/
def verifyConnection (b : Built) (t : Moment) (certs : List Cert) (chains : List (List Cert)) : Bool :=
  match certs with
  | [] => false
  | cert :: _ =>
    match b.pkiMap.lookup cert.aki with
    | some m => !t.revoked m cert.serial
    | none => if cert.ocsp then !t.ocspBad chains else true

/-- The client side of crypto/tls, as far as the identity of the server is concerned: there must be a server
name unless verification is turned off (`tls.Client`, "either ServerName or InsecureSkipVerify must be
specified"); unless it is turned off the certificates are verified; then `VerifyConnection` decides. -/
def handshake (w : World) (b : Built) (t : Moment) (c : TlsConfig) (certs : List Cert) : Bool :=
  if c.serverName = "" ∧ ¬ c.insecure then false
  else
    let chains := if c.insecure then [] else w.verify (c.rootCAs.getD w.system) c.serverName certs
    if chains.isEmpty ∧ ¬ c.insecure then false
    else verifyConnection b t certs chains

/-- quic-go fills in the IP address that is dialled if there is no server name (`setTLSConfigServerName`; from
memory of the library). -/
def quicConfig (w : World) (addr : String) (c : TlsConfig) : TlsConfig :=
  if c.serverName = "" then { c with serverName := w.ip addr } else c

/-- What protects a connection to a server. -/
inductive Link where
  | plain
  | tls
deriving DecidableEq, Repr

/-- Whether a connection to `addr` comes about over which data of clients is sent, if whoever answers there
presents `certs` (backend.go:145-177, quic.go:556-562). `h3` says that it is dialled by `dialQUICBackend`. -/
def connect (w : World) (be : Backend) (b : Built) (t : Moment) (slot : Option Nat) (h3 : Bool) (addr : String)
    (certs : List Cert) : Option Link :=
  if h3 ∨ modeOf be slot = "QUIC" then
    if handshake w b t (quicConfig w addr (tlsConfig be b slot)) certs then some .tls else none
  else if modeOf be slot = "TLS" ∨ modeOf be slot = "HTTPS" then
    if handshake w b t (tlsConfig be b slot) certs then some .tls else none
  else some .plain

end Verif.ServerAuth
