import Verif.Model.Ocsp
/-
Who signs OCSP answers: golang.org/x/crypto/ocsp `ParseResponseForCert` and `ParseResponse`, as they are
called by the proxy (proxy/internal/ocspcache/ocsp.go:134-145, 225-252) and by the command line client with
`-ocsp` (tlsclient/main.go:111-137).

x/crypto is not in /repo; its rules are transcribed from memory. A key is a number, and a signature is the
number of the key that made it. Certificates are not checked for anything but their signature, as there.
-/
namespace Verif.OcspSig

abbrev Key := Nat

/-- What is in a certificate. `raw` stands for its bytes. -/
structure Crt where
  raw : Nat
  serial : Nat
  key : Key
  /-- the key that signed it -/
  signer : Key
  /-- the extended key usage id-kp-OCSPSigning -/
  ocspSigning : Bool := false
  servers : List Nat := []
deriving DecidableEq, Repr

/-- One `singleResponse`. -/
structure Entry where
  serial : Nat
  status : Ocsp.Status
  /-- `NextUpdate`, 0 if it is missing -/
  next : Nat
  /-- there is a critical extension -/
  critical : Bool := false
deriving DecidableEq, Repr

/-- An OCSP answer; `ok` is false if it does not parse, or if it is an error or of another type. -/
structure Answer where
  ok : Bool := true
  entries : List Entry
  signedBy : Key
  /-- the certificates in it -/
  embedded : List Crt := []
deriving DecidableEq, Repr

/-- `CheckSignatureFrom`, and `CheckSignature` of an issuer on a certificate. -/
def signatureOK (issuer : Option Crt) (a : Answer) : Bool :=
  match a.embedded with
  | d :: _ =>
    a.signedBy = d.key &&
    (match issuer with
      | some i => d.signer = i.key
      | none => true)
  | [] =>
    match issuer with
    | some i => a.signedBy = i.key
    | none => true

/-- The entry that is used: that of the certificate, or the only one. -/
def pick (cert : Option Crt) (entries : List Entry) : Option Entry :=
  match cert with
  | some c => entries.find? fun e => e.serial = c.serial
  | none =>
    match entries with
    | [e] => some e
    | _ => none

/-- `ParseResponseForCert`; `ParseResponse` is that without a certificate. The identity of the signer is
recorded for the models of callers. -/
def parse (a : Answer) (cert issuer : Option Crt) : Option Ocsp.Resp :=
  if a.ok = false then none
  else
    match pick cert a.entries with
    | none => none
    | some e =>
      if signatureOK issuer a = false then none
      else if e.critical then none
      else some { serial := e.serial, status := e.status, next := e.next, signer := a.signedBy }

/-! ## The proxy -/

/-- What the proxy meets: what certificates say, by their bytes, which answer is stapled, and what OCSP servers
answer. -/
structure Outside where
  crt : Nat → Crt
  staple : Option Answer
  net : Nat → Nat → Nat → Option Answer
  now : Nat → Nat
  other : Nat → Ocsp.Cache → Ocsp.Cache

/-- `x509.Certificate` as the other model of the cache has it. -/
def view (c : Crt) : Ocsp.Cert := { raw := c.raw, serial := c.serial, servers := c.servers }

/-- The environment of the model of the cache (`Ocsp`); ocsp.go:137 and 242-250. -/
def envOf (w : Outside) : Ocsp.Env where
  now := w.now
  other := w.other
  create _ _ := true
  staple c i := w.staple.bind fun a => parse a (some (w.crt c.raw)) (some (w.crt i.raw))
  fetch n c i srv :=
    match w.net n c.raw srv with
    | none => .error .protocol
    | some a =>
      match parse a none (some (w.crt i.raw)) with
      | none => .error .protocol
      | some r => .ok r

/-- `VerifyChains` of the chains of a handshake (ocsp.go:134-187, backend.go:125, proxy.go:610, quic.go:537). -/
def verify (w : Outside) (s : Ocsp.State) (chains : List (List Crt)) : Ocsp.Verdict × Ocsp.State :=
  Ocsp.verifyChains (envOf w) s (chains.map fun ch => ch.map view) w.staple.isSome

/-! ## The command line client -/

inductive ClientErr where
  | missing
  | invalid
  | expired
  | notGood
deriving DecidableEq, Repr

/-- tlsclient/main.go:120-123. -/
def issuerFrom (cert : Crt) (rest : List Crt) : Crt :=
  match rest with
  | [] => cert
  | i :: _ => i

/-- tlsclient/main.go:111-137, `VerifyConnection`, for a server that sends `cert :: rest`. -/
def clientCheck (flag : Bool) (now : Nat) (cert : Crt) (rest : List Crt) (staple : Option Answer) : Option ClientErr :=
  if flag = false then none
  else
    match staple with
    | none => some .missing
    | some a =>
      match parse a (some cert) (some (issuerFrom cert rest)) with
      | none => some .invalid
      | some r =>
        if r.next < now then some .expired
        else if r.status ≠ .good then some .notGood
        else none

end Verif.OcspSig
