import Verif.Model.ClientKeys
/-!
# Keys of the local certificate authorities

Model of how the certificate authority for SSH (proxy/internal/sshca/sshca.go:90-109, 133-242) and the one for client
certificates (proxy/internal/pki/pki.go:128-145, 224-385) make, store and read their keys, and of the keys that sign OCSP
answers (`maybeRotateDelegateCert`, pki.go:387-455, and `OCSPResponse`, pki.go:583-676). `keys.GenerateKey` is in
`Verif.Model.ClientKeys`.

Simplifications: keys are numbers; time is left out except that a certificate for signing may be `old`; storage does not
fail. With a TPM (`hwBacked`), which keys the device can make is a parameter. `ssh.NewSignerFromKey` refuses keys on P-224,
and `ocsp.CreateResponse` refuses Ed25519 keys (golang.org/x/crypto v0.29.0).
-/
namespace Verif.KeyTypes

open Verif.ClientKeys (Str KeyKind generateKey)

structure Stored where
  id : Nat
  kind : KeyKind
  inTPM : Bool
deriving DecidableEq, Repr

structure Env where
  /-- `strings.ToLower` -/
  lower : Str → Str
  /-- the TPM, if there is one, with the keys that it can make -/
  tpm : Option (KeyKind → Bool)

/-- pki.go:319-367. -/
def pkiTPM (lower : Str → Str) (keyType : Str) : Option KeyKind :=
  let kt := lower keyType
  if kt = "ecdsa-p224".toList then some (.ecdsa 224)
  else if kt = "ecdsa-p256".toList then some (.ecdsa 256)
  else if kt = "ecdsa-p384".toList then some (.ecdsa 384)
  else if kt = "ecdsa-p521".toList then some (.ecdsa 521)
  else if kt = "rsa-2048".toList then some (.rsa 2048)
  else if kt = "rsa-3072".toList then some (.rsa 3072)
  else if kt = "rsa-4096".toList then some (.rsa 4096)
  else if kt = "rsa-8192".toList then some (.rsa 8192)
  else none

/-- sshca.go:178-224. -/
def sshTPM (lower : Str → Str) (keyType : Str) : Option KeyKind :=
  let kt := lower keyType
  if kt = "ecdsa-p256".toList then some (.ecdsa 256)
  else if kt = "ecdsa-p384".toList then some (.ecdsa 384)
  else if kt = "ecdsa-p521".toList then some (.ecdsa 521)
  else if kt = "rsa-2048".toList then some (.rsa 2048)
  else if kt = "rsa-3072".toList then some (.rsa 3072)
  else if kt = "rsa-4096".toList then some (.rsa 4096)
  else if kt = "rsa-8192".toList then some (.rsa 8192)
  else none

/-- `generateKey`, pki.go:318-378 and sshca.go:177-235, with the table `t` for the TPM. -/
def generate (t : (Str → Str) → Str → Option KeyKind) (env : Env) (keyType : Str) (fresh : Nat) : Option Stored :=
  match env.tpm with
  | some makes =>
    match t env.lower keyType with
    | some k => if makes k then some ⟨fresh, k, true⟩ else none
    | none => none
  | none => (generateKey env.lower keyType).map fun k => ⟨fresh, k, false⟩

/-- `parseKeyBytes`, pki.go:380-385 and sshca.go:237-242. -/
def parse (env : Env) (k : Stored) : Option Stored := if k.inTPM = env.tpm.isSome then some k else none

/-- pki.go:136-138, sshca.go:98-100. -/
def orDefault (keyType : Str) : Str := if keyType = [] then "ecdsa-p256".toList else keyType

/-- `ssh.NewSignerFromKey` -/
def sshSigns : KeyKind → Bool
  | .ecdsa 224 => false
  | _ => true

/-- sshca.go:90-109 and 133-175: the signer, and the stored key afterwards. -/
def initSSH (env : Env) (keyType : Str) (fresh : Nat) (db : Option Stored) : Option Stored × Option Stored :=
  match db with
  | some k =>
    match parse env k with
    | some k' => if sshSigns k'.kind then (some k', db) else (none, db)
    | none => (none, db)
  | none =>
    match generate sshTPM env (orDefault keyType) fresh with
    | some k =>
      match parse env k with
      -- the new key is not stored if there is an error
      | some k' => if sshSigns k'.kind then (some k', some k) else (none, none)
      | none => (none, none)
    | none => (none, none)

/-- `certificateAuthority`, pki.go:155-165. -/
structure Pki where
  key : Stored
  /-- the key for OCSP answers and revocation lists -/
  delegate : Option Stored
  /-- how many certificates are stored (`IssuedCerts`) -/
  issued : Nat
deriving DecidableEq, Repr

/-- pki.go:128-145 and 224-316, without the renewal of the certificate: whether it succeeds, and what is stored. -/
def initPki (env : Env) (keyType : Str) (fresh : Nat) (db : Option Pki) : Bool × Option Pki :=
  match db with
  | some p => ((parse env p.key).isSome, db)
  | none =>
    match generate pkiTPM env (orDefault keyType) fresh with
    | some k => if (parse env k).isSome then (true, some ⟨k, none, 1⟩) else (false, none)
    | none => (false, none)

/-- pki.go:411-415 -/
def delegateType (keyType : Str) : Str :=
  if orDefault keyType = "ed25519".toList then "ecdsa-p256".toList else orDefault keyType

/-- pki.go:393-402 -/
def needsDelegate (old : Bool) (p : Pki) : Bool :=
  match p.delegate with
  | none => true
  | some d => old || decide (d.kind = .ed25519)

/-- `maybeRotateDelegateCert`, pki.go:387-455, with `signCertificate` (772-821); `none`: an error. -/
def rotate (env : Env) (keyType : Str) (fresh : Nat) (old : Bool) (p : Pki) : Option Pki :=
  if needsDelegate old p then
    match generate pkiTPM env (delegateType keyType) fresh with
    | some d =>
      match parse env p.key with
      | some _ => some { p with delegate := some d, issued := p.issued + 1 }
      | none => none
    | none => none
  else some p

/-- `ocsp.CreateResponse` -/
def ocspSigns : KeyKind → Bool
  | .ed25519 => false
  | _ => true

/-- `OCSPResponse`, pki.go:583-676: whether there is an answer, and what is stored afterwards. -/
def ocsp (env : Env) (keyType : Str) (fresh : Nat) (old : Bool) (p : Pki) : Bool × Pki :=
  match rotate env keyType fresh old p with
  | none => (false, p)
  | some q =>
    match q.delegate.bind (parse env) with
    | some d => (ocspSigns d.kind, q)
    | none => (false, q)

/-- Requests, each with a new number and with whether the certificate for signing is old by then. -/
def requests (env : Env) (keyType : Str) : List (Nat × Bool) → Pki → List Bool × Pki
  | [], p => ([], p)
  | (fresh, old) :: rest, p =>
    let a := ocsp env keyType fresh old p
    let b := requests env keyType rest a.2
    (a.1 :: b.1, b.2)

end Verif.KeyTypes
