/-
Keys that are made in the browser: `MakeCSR` and `MakeResponse`
(proxy/internal/pki/clientwasm/impl/impl.go:54-129), their callers in clientwasm/main.go (58-116),
`keys.GenerateKey` (proxy/internal/pki/keys/keys.go:37-75), and the service worker that calls them (sw.js).

Simplifications: a private key is a number that was not used before, and its public key is the same number;
encryption with a password is a package that shows the password; `url.ParseQuery` has been done. Arguments
of the wrong type and failures of the encoders are left out.
-/
namespace Verif.ClientKeys

abbrev Str := List Char

/-! ## Keys and requests -/

inductive KeyKind where
  | ed25519
  | ecdsa (bits : Nat)
  | rsa (bits : Nat)
deriving DecidableEq, Repr

/-- keys.go:37-75 `GenerateKey`; `lower` is `strings.ToLower`. -/
def generateKey (lower : Str → Str) (keyType : Str) : Option KeyKind :=
  let kt := lower keyType
  if kt = "ed25519".toList then some .ed25519
  else if kt = "ecdsa-p224".toList then some (.ecdsa 224)
  else if kt = "ecdsa-p256".toList then some (.ecdsa 256)
  else if kt = "ecdsa-p384".toList then some (.ecdsa 384)
  else if kt = "ecdsa-p521".toList then some (.ecdsa 521)
  else if kt = "rsa-2048".toList then some (.rsa 2048)
  else if kt = "rsa-3072".toList then some (.rsa 3072)
  else if kt = "rsa-4096".toList then some (.rsa 4096)
  else if kt = "rsa-8192".toList then some (.rsa 8192)
  else none

/-- The form of the page, certs.html:86-109. -/
structure Form where
  keytype : Str
  format : Str
  label : Str
  dnsname : Str
  password : Str
deriving DecidableEq, Repr

/-- impl.go:48-52. -/
structure KeyData where
  key : Nat
  kind : KeyKind
  format : Str
  password : Str
deriving DecidableEq, Repr

/-- A certificate request. -/
structure Csr where
  pub : Nat
  cn : Str
  dns : List Str
deriving DecidableEq, Repr

/-- A certificate. -/
structure Cert where
  pub : Nat
  /-- `SerialNumber.Bytes()` -/
  serial : List Nat
deriving DecidableEq, Repr

/-- `unicode.IsSpace`. -/
def space (c : Char) : Bool :=
  [9, 10, 11, 12, 13, 32, 0x85, 0xA0, 0x1680, 0x2028, 0x2029, 0x202f, 0x205f, 0x3000].contains c.toNat ||
    (0x2000 ≤ c.toNat && c.toNat ≤ 0x200a)

/-- `strings.Fields`: `w` is the field that has begun. -/
def fieldsFrom (w : Str) : Str → List Str
  | [] => if w = [] then [] else [w]
  | c :: s =>
    if space c then (if w = [] then fieldsFrom [] s else w :: fieldsFrom [] s)
    else fieldsFrom (w ++ [c]) s

def fields (s : Str) : List Str := fieldsFrom [] s

/-- impl.go:71-73; without names the field is not set, which is the same. -/
def dnsNames (s : Str) : List Str :=
  if s ≠ [] then fields (s.map fun c => if c = ',' then ' ' else c) else []

/-- The memory of the program: `privateKeys`, and which keys have not been made. -/
structure Mem where
  keys : List (Nat × KeyData)
  fresh : Nat
deriving DecidableEq, Repr

/-- impl.go:54-79 `MakeCSR`. `ok` is false if the request cannot be made. -/
def makeCSR (lower : Str → Str) (m : Mem) (id : Nat) (f : Form) (ok : Bool) : Mem × Option Csr :=
  match generateKey lower f.keytype with
  | none => (m, none)
  | some kind =>
    let kd : KeyData := { key := m.fresh, kind := kind, format := f.format, password := f.password }
    ({ keys := (id, kd) :: m.keys.filter (fun e => e.1 ≠ id), fresh := m.fresh + 1 },
      if ok then some { pub := m.fresh, cn := f.label, dns := dnsNames f.dnsname } else none)

/-- clientwasm/main.go:58-89 `makeCSR`. -/
def makeRequest (lower : Str → Str) (m : Mem) (id : Nat) (f : Form) (ok : Bool) : Mem × Option Csr :=
  let keytype := if f.keytype = [] then "ecdsa-p256".toList else f.keytype
  let format := if f.format = [] then "gpg".toList else f.format
  if f.password = [] then (m, none)
  else makeCSR lower m id { f with keytype := keytype, format := format } ok

/-- What is downloaded. -/
structure Pkg where
  key : Nat
  cert : Cert
  password : Str
  ctype : Str
  file : Str
deriving DecidableEq, Repr

def hexDigit (n : Nat) : Char := if n < 10 then Char.ofNat (48 + n) else Char.ofNat (87 + n)

/-- `hex.EncodeToString`. -/
def hexText (b : List Nat) : Str := b.flatMap fun n => [hexDigit (n / 16), hexDigit (n % 16)]

/-- impl.go:90, 96-128. -/
def package (kd : KeyData) (cert : Cert) : Option Pkg :=
  let sn := hexText cert.serial
  if kd.format = "gpg".toList then
    some { key := kd.key, cert := cert, password := kd.password, ctype := "application/octet-stream".toList,
           file := sn ++ ".pem.gpg".toList }
  else if kd.format = "p12".toList then
    some { key := kd.key, cert := cert, password := kd.password, ctype := "application/x-pkcs12".toList,
           file := sn ++ ".p12".toList }
  else none

/-- impl.go:81-129 `MakeResponse`; `none` is a text without a certificate. -/
def makeResponse (m : Mem) (id : Nat) (cert : Option Cert) : Mem × Option Pkg :=
  match cert with
  | none => (m, none)
  | some cert =>
    match m.keys.lookup id with
    | none => (m, none)
    | some kd => ({ m with keys := m.keys.filter (fun e => e.1 ≠ id) }, package kd cert)

/-- clientwasm/main.go:109-113: the header. -/
def disposition (p : Pkg) : Str := "attachment; filename=\"".toList ++ p.file ++ "\"".toList

/-! ## The service worker -/

inductive Phase where
  /-- sw.js:54-63: the number is taken, the form is being read -/
  | reading
  /-- sw.js:68-76: the request has been sent -/
  | fetching
  | over
deriving DecidableEq, Repr

/-- One call of `generateKeyAndCert` (sw.js:52-88). -/
structure Run where
  form : Form
  count : Nat
  phase : Phase
  /-- what was sent to the server -/
  csr : Option Csr
  /-- what the server has answered -/
  cert : Option Cert
  out : Option Pkg
deriving DecidableEq, Repr

structure World where
  mem : Mem
  /-- `keyCount` -/
  count : Nat
  runs : List Run
deriving DecidableEq, Repr

inductive Event where
  /-- a form is posted -/
  | post (f : Form)
  /-- the form of a run has been read -/
  | read (i : Nat) (ok : Bool)
  /-- the server answers: a certificate, something else, or an error -/
  | answer (i : Nat) (cert : Option Cert)
  /-- the browser stops the worker; it starts again with an empty memory -/
  | restart
deriving DecidableEq, Repr

/-- The form has been read, sw.js:63-76. If no request could be made, an empty one is sent. -/
def read (lower : Str → Str) (w : World) (i : Nat) (ok : Bool) (r : Run) : World :=
  let res := makeRequest lower w.mem r.count r.form ok
  { w with mem := res.1, runs := w.runs.set i { r with phase := .fetching, csr := res.2 } }

/-- The answer is there, sw.js:77-87; anything but a certificate ends the run before `makeResponse`. -/
def answer (w : World) (i : Nat) (cert : Option Cert) (r : Run) : World :=
  let res := makeResponse w.mem r.count cert
  { w with mem := res.1, runs := w.runs.set i { r with phase := .over, cert := cert, out := res.2 } }

def step (lower : Str → Str) (w : World) : Event → World
  | .post f =>
    { w with count := w.count + 1,
             runs := w.runs ++ [{ form := f, count := w.count + 1, phase := .reading, csr := none, cert := none,
                                  out := none }] }
  | .read i ok =>
    match w.runs[i]? with
    | some r => if r.phase = .reading then read lower w i ok r else w
    | none => w
  | .answer i cert =>
    match w.runs[i]? with
    | some r => if r.phase = .fetching then answer w i cert r else w
    | none => w
  | .restart =>
    { mem := { w.mem with keys := [] }, count := 0, runs := w.runs.map fun r => { r with phase := .over } }

def init : World := { mem := ⟨[], 0⟩, count := 0, runs := [] }

def run (lower : Str → Str) (evs : List Event) (w : World) : World := evs.foldl (step lower) w

end Verif.ClientKeys
