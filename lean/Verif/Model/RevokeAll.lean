/-
Model of `RevokeAllCertificates` (proxy/revoke.go:46-103), run by main.go:94-99 before the proxy is
started, with `acmeAllCerts` (190-252) down to the PEM blocks of a cache entry, `acmeAccountKey` (166-188) and
`parsePrivateKey` (269-283). Nothing else runs at
the same time. The answers of the ACME server are a parameter that may depend on all earlier
requests. `DeleteKeys` removes all or, on failure, none of the keys.
-/
namespace Verif.RevokeAll

/-- A parsed certificate. -/
structure Cert where
  id : Nat
  notAfter : Nat
deriving DecidableEq, Repr

/-- The bytes of a private key, by the results of the three parsers: PKCS #8, where the key may be one that cannot sign
(`none` inside), SEC 1, and PKCS #1. -/
structure KeyBytes where
  pkcs8 : Option (Option Nat) := none
  sec1 : Option Nat := none
  pkcs1 : Option Nat := none
deriving DecidableEq, Repr

/-- What `parsePrivateKey` returns. -/
inductive Parsed where
  | signer (k : Nat)
  /-- a `crypto.Signer` that is a nil `*rsa.PrivateKey`, and no error -/
  | nilSigner
  /-- an error -/
  | invalid
deriving DecidableEq, Repr

/-- revoke.go:269-283 `parsePrivateKey`. The error of the last parser is not looked at; what it returns beside an error
is a nil `*rsa.PrivateKey`, and the type assertion on it succeeds. -/
def parsePrivateKey (b : KeyBytes) : Parsed :=
  match b.pkcs8 with
  | some (some k) => .signer k
  | some none => .invalid
  | none =>
    match b.sec1 with
    | some k => .signer k
    | none =>
      match b.pkcs1 with
      | some k => .signer k
      | none => .nilSigner

/-- A PEM block of a cache entry. -/
inductive Block where
  /-- type contains "PRIVATE KEY" -/
  | key (b : KeyBytes)
  /-- type is "CERTIFICATE"; the result of `x509.ParseCertificate` -/
  | cert (c : Option Cert)
  | other
deriving DecidableEq, Repr

/-- A cache entry, `none` if it cannot be read. -/
abbrev Entry := Option (List Block)
abbrev Cache := List (String × Entry)

/-- revoke.go:43. -/
def acmeAccountKey : String := "acme_account+key"

/-- revoke.go:216-232: the loop over the PEM blocks: the last private key, which may be nil in spite of having a type
(`some none`), and all certificates; `none` if there is an error. -/
def scan : List Block → Option (Option Nat) → List (Option Cert) → Option (Option (Option Nat) × List (Option Cert))
  | [], p, cs => some (p, cs)
  | .key b :: bs, _, cs =>
    match parsePrivateKey b with
    | .invalid => none
    | .signer k => scan bs (some (some k)) cs
    | .nilSigner => scan bs (some none) cs
  | .cert c :: bs, p, cs => scan bs p (cs ++ [c])
  | .other :: bs, p, cs => scan bs p cs

/-- revoke.go:209-249: the key and the leaf certificate of an entry. -/
def readEntry : Entry → Option (Option Nat × Cert)
  | none => none
  | some bs =>
    match scan bs none [] with
    | some (some k, some c :: _) => some (k, c)
    | _ => none

/-- What is to be revoked: the key in the cache, the private key, the certificate. -/
abbrev Item := String × Option Nat × Cert

/-- revoke.go:190-252 `acmeAllCerts`. -/
def allCerts (c : Cache) : List Item :=
  c.filterMap fun e => if e.1 = acmeAccountKey then none else (readEntry e.2).map fun x => (e.1, x.1, x.2)

/-- revoke.go:254-267 `parseRevocationReason`, with the codes of golang.org/x/crypto/acme. -/
def parseReason (r : String) : Option Nat :=
  if r = "unspecified" then some 0
  else if r = "keyCompromise" then some 1
  else if r = "superseded" then some 4
  else if r = "cessationOfOperation" then some 5
  else none

/-- A call of `client.RevokeCert`: the key it is signed with, the certificate, the reason. -/
structure Request where
  key : Nat
  cert : Cert
  reason : Nat
deriving DecidableEq, Repr

/-- What cannot be computed from the cache: whether its keys can be read, the account key (`none`: it cannot be read;
`some none`: it is not PEM), the time, the answers of the server to a request after the earlier ones (newest first), and
whether `DeleteKeys` works. -/
structure Env where
  keysOk : Bool
  account : Option (Option KeyBytes)
  now : Nat
  server : List Request → Request → Bool
  deleteOk : Bool

/-- revoke.go:166-188 `acmeAccountKey`: whether there is no error. The requests are signed with the keys of the
certificates, so the account key is not used further. -/
def accountOk (env : Env) : Bool :=
  match env.account with
  | some (some b) => parsePrivateKey b != .invalid
  | _ => false

/-- How the loop ends. -/
inductive End where
  | done
  | refused
  | panic
deriving DecidableEq, Repr

/-- revoke.go:91-101: the loop; the requests made (newest first). `RevokeCert` (golang.org/x/crypto/acme) first asks the
key for its public part, which panics if the key is a nil pointer; that it fails before this if the server cannot be
reached at all is left out. -/
def loop (env : Env) (reason : Nat) : List Item → List Request → List Request × End
  | [], done => (done, .done)
  | (_, k, c) :: rest, done =>
    if c.notAfter < env.now then loop env reason rest done
    else
      match k with
      | none => (done, .panic)
      | some k =>
        let r : Request := ⟨k, c, reason⟩
        if env.server done r then loop env reason rest (r :: done) else (r :: done, .refused)

/-- What a run leaves behind: the cache, the requests made (newest first), whether it succeeded, and whether it ended with
a panic, which ends the process. -/
structure Result where
  cache : Cache
  requests : List Request
  ok : Bool
  panicked : Bool := false

/-- revoke.go:46-103. `sort` is `sort.Strings` on the keys. -/
def revokeAll (sort : List Item → List Item) (env : Env) (reason : String) (cache : Cache) : Result :=
  match parseReason reason with
  | none => ⟨cache, [], false, false⟩
  | some code =>
    if !env.keysOk then ⟨cache, [], false, false⟩
    else
      let todo := sort (allCerts cache)
      if todo = [] then ⟨cache, [], true, false⟩
      else if !accountOk env then ⟨cache, [], false, false⟩
      else
        let l := loop env code todo []
        if l.2 = .panic then ⟨cache, l.1, false, true⟩
        else if l.2 = .refused then ⟨cache, l.1, false, false⟩
        else if !env.deleteOk then ⟨cache, l.1, false, false⟩
        else ⟨cache.filter fun e => !(todo.map (·.1)).contains e.1, l.1, true, false⟩

end Verif.RevokeAll
