/-!
# SSH certificates

Model of `SSHCA.ServeCertificate`, `proxy/internal/sshca/sshca.go:258-343`. Parsing the submitted key
(`ssh.ParseAuthorizedKey`), the random serial number and the signature are parameters; keys are
opaque. Times are nanoseconds. The body is limited to 102400 bytes before it is parsed.
-/

namespace Verif.Sshca

abbrev Str := List Char

/-- A claim: `map[string]any`. -/
inductive Val where
  | str (s : Str)
  | other
  deriving DecidableEq, Repr

structure Req where
  /-- `ClaimsFromCtx`; `none` is `nil` -/
  claims : Option (List (Str × Val))
  method : Str
  csrf : Str
  contentType : Str
  /-- `none` if reading fails -/
  body : Option (List Nat)

inductive CertType where
  | user
  | host
  deriving DecidableEq, Repr

/-- `ssh.Certificate`. -/
structure Cert (K : Type) where
  key : K
  serial : Nat
  certType : CertType
  keyId : Str
  principals : List Str
  validAfter : Nat
  validBefore : Nat
  criticalOptions : List (Str × Str)
  extensions : List Str
  deriving DecidableEq, Repr

inductive Resp (K : Type) where
  | error (code : Nat)
  | cert (c : Cert K)
  deriving DecidableEq, Repr

structure Env (K : Type) where
  /-- `ca.signer != nil` -/
  hasSigner : Bool
  /-- `ssh.ParseAuthorizedKey` -/
  parse : List Nat → Option K
  /-- 8 random bytes as a number, `none` if the generator fails -/
  rnd : Option Nat
  /-- whether `SignCert` succeeds -/
  signs : Cert K → Bool
  now : Int

/-- The email of sshca.go:265-270. -/
def emailOf (claims : Option (List (Str × Val))) : Str :=
  match claims with
  | none => []
  | some m =>
    match m.lookup "email".toList with
    | some (.str e) => if e ≠ [] then e else []
    | _ => []

/-- `uint64(t.Unix())`. -/
def unix64 (t : Int) : Nat := ((t / 1000000000) % 18446744073709551616).toNat

def extensions : List Str :=
  ["permit-X11-forwarding".toList, "permit-agent-forwarding".toList, "permit-port-forwarding".toList,
   "permit-pty".toList, "permit-user-rc".toList]

/-- The certificate of sshca.go:311-328. -/
def mkCert {K : Type} (pub : K) (rnd : Nat) (email : Str) (now : Int) : Cert K where
  key := pub
  serial := rnd
  certType := .user
  keyId := email
  principals := [email]
  validAfter := unix64 (now - 300000000000)
  validBefore := unix64 (now + 600000000000)
  criticalOptions := []
  extensions := extensions

/-- `ServeCertificate`, sshca.go:258-343. -/
def serve {K : Type} (env : Env K) (req : Req) : Resp K :=
  if !env.hasSigner then .error 500
  else
    let email := emailOf req.claims
    if email = [] then .error 403
    else if req.method ≠ "POST".toList then .error 405
    else if req.csrf ≠ "1".toList then .error 400
    else if req.contentType ≠ "text/plain".toList then .error 400
    else
      match req.body with
      | none => .error 500
      | some body =>
        match env.parse (body.take 102400) with
        | none => .error 500
        | some pub =>
          match env.rnd with
          | none => .error 500
          | some r =>
            let c := mkCert pub r email env.now
            if env.signs c then .cert c else .error 500

end Verif.Sshca
