/-!
# The certificate authority

Model of `proxy/internal/pki/pki.go` and `http.go`: serial numbers (`bytesToHex` 834-840), signing
(`IssueCertificate` 737-769, `signCertificate` 772-821), revocation (`RevokeCertificate` 680-710,
`IsRevoked` 572-580), revocation lists (`RevocationList` 476-569), OCSP answers (`OCSPResponse`
583-676) and the management page (`handleRequestCert` http.go:344-409, `handleRevokeCert`
http.go:411-457, `findCert` http.go:511-527).

The manager is a state machine whose steps are the critical sections under `m.mu`. Revoking through
the management page is two steps, because `findCert` and `RevokeCertificate` lock separately. The
log lists what the outside world sees, newest first.

Simplifications:
* a certificate is a record of its fields; keys, signatures and encodings are left out, and so are
  failures of parsing a stored certificate (they only refuse);
* times are milliseconds; dates in certificates, revocations and revocation lists have whole seconds;
* storage: `OpenForUpdate(file, &m.db)` decodes the file over the structure in memory: lists and
  numbers are replaced, the map `Revoked` is merged. A failed commit leaves memory as it is. `reload`
  drops what is only in memory (so that a library that does not merge is included); `restart` also
  forgets the requests being handled;
* `m.db == nil` (no CA yet) is left out: the constructor fails in that case;
* POST and `x-csrf-check` tests are left out;
* the rotation of the delegate key is an ordinary signing step (`delegate`).
-/

namespace Verif.Pki

abbrev Str := List Char

/-! ## Serial numbers -/

/-- `big.Int.Bytes`: big endian, no leading zero; `fuel` is at least `n`. -/
def natBytesF : Nat → Nat → List Nat
  | 0, _ => []
  | f + 1, n => if n = 0 then [] else natBytesF f (n / 256) ++ [n % 256]

def natBytes (n : Nat) : List Nat := natBytesF n n

def hexDigit (n : Nat) : Char :=
  ("0123456789abcdef".toList)[n]?.getD '?'

/-- `fmt.Sprintf("%02x", v)`. -/
def hex2 (b : Nat) : Str := [hexDigit (b / 16), hexDigit (b % 16)]

/-- `bytesToHex`, pki.go:834-840. -/
def bytesToHex : List Nat → Str
  | [] => []
  | [b] => hex2 b
  | b :: t => hex2 b ++ ':' :: bytesToHex t

/-- `bytesToHex(sn.Bytes())`; `Bytes` is that of the absolute value. -/
def snText (z : Int) : Str := bytesToHex (natBytes z.natAbs)

/-! ## Data -/

/-- `revocation`, pki.go:202-205. -/
structure Rev where
  time : Nat
  reason : Nat
  deriving DecidableEq, Repr

/-- `certificate` (pki.go:167-174) with the fields of its parsed form. -/
structure Cert where
  text : Str
  serial : Nat
  cn : Str
  emails : List Str
  dns : List Str
  uris : List Str
  ips : List Str
  clientAuth : Bool
  serverAuth : Bool
  isCA : Bool
  notAfter : Nat
  rev : Option Rev
  deriving DecidableEq, Repr

/-- `x509.RevocationList`. -/
structure Crl where
  number : Nat
  thisUpd : Nat
  nextUpd : Nat
  entries : List (Nat × Rev)
  deriving DecidableEq, Repr

/-- `certificateAuthority`, pki.go:155-165 (the CA and delegate keys are left out). -/
structure Db where
  issued : List Cert
  crlNumber : Nat
  lists : List Crl
  revoked : List Str
  deriving DecidableEq, Repr

/-- A signing request: `x509.CertificateRequest`. -/
structure Csr where
  cn : Str
  emails : List Str
  dns : List Str
  uris : List Str
  ips : List Str
  deriving DecidableEq, Repr

inductive Status where
  | good
  | revoked
  | unknown
  deriving DecidableEq, Repr

/-- Outcome of the storage operations and of building a revocation list. -/
inductive Commit where
  | ok
  | openFails
  | buildFails
  | fails
  deriving DecidableEq, Repr

inductive Event where
  /-- a certificate was signed, on request of a user or for the CA itself -/
  | signed (c : Cert) (user : Option Str)
  /-- a revocation request passed the tests of the management page -/
  | asked (rid : Nat) (email : Str) (admin : Bool) (c : Cert) (t : Nat)
  /-- the revocation succeeded -/
  | revoked (rid : Nat) (serial : Nat) (notAfter t : Nat)
  | crl (l : Crl) (t : Nat)
  | ocsp (issuerOk : Bool) (z : Int) (st : Status)
  | check (z : Int) (b : Bool)
  deriving DecidableEq, Repr

structure Cfg where
  admins : List Str

structure State where
  /-- in memory -/
  db : Db
  /-- in the file -/
  disk : Db
  /-- revocation requests between `findCert` and `RevokeCertificate`: serial number -/
  pending : List (Nat × Nat)
  clock : Nat
  log : List Event

def emptyDb : Db := ⟨[], 0, [], []⟩

def init : State := ⟨emptyDb, emptyDb, [], 0, []⟩

/-- `Truncate(time.Second)`. -/
def trunc (t : Nat) : Nat := t / 1000 * 1000

/-- 10 * 365 * 24 hours. -/
def lifetime : Nat := 315360000000

/-- `OpenForUpdate`. -/
def reread (s : State) : Db := { s.disk with revoked := s.disk.revoked ++ s.db.revoked }

/-- `commit(true, nil)` after the structure in memory became `db`. -/
def commit (s : State) (c : Commit) (db : Db) : State :=
  if c = .ok then { s with db := db, disk := db } else { s with db := db }

/-! ## Signing -/

/-- The certificate `IssueCertificate` makes, pki.go:737-769. -/
def issueCert (cr : Csr) (sn now : Nat) : Cert where
  text := snText sn
  serial := sn
  cn := cr.cn
  emails := cr.emails
  dns := cr.dns
  uris := cr.uris
  ips := cr.ips
  clientAuth := !(decide (cr.dns.length > 0) || decide (cr.ips.length > 0))
  serverAuth := decide (cr.dns.length > 0) || decide (cr.ips.length > 0)
  isCA := false
  notAfter := trunc (now + lifetime)
  rev := none

/-- The request `handleRequestCert` passes on, http.go:386-397. -/
def userCsr (email : Str) (inp : Csr) : Csr where
  cn := if inp.cn = [] then email else email ++ ("::".toList ++ inp.cn)
  emails := [email]
  dns := inp.dns
  uris := []
  ips := []

/-- `signCertificate`, pki.go:772-821. -/
def sign (s : State) (cert : Cert) (user : Option Str) (c : Commit) : State :=
  if c = .openFails then s
  else if c = .buildFails then { s with db := reread s }
  else
    let r := reread s
    let s1 := commit s c { r with issued := r.issued ++ [cert] }
    { s1 with log := .signed cert user :: s.log }

/-- The delegate certificate, pki.go:425-443, and the CA's own, pki.go:286-299. -/
def caCert (cn : Str) (sn now life : Nat) : Cert where
  text := snText sn
  serial := sn
  cn := cn
  emails := []
  dns := []
  uris := []
  ips := []
  clientAuth := false
  serverAuth := false
  isCA := true
  notAfter := trunc (now + life)
  rev := none

/-! ## Revoking -/

/-- The loop of `RevokeCertificate`, pki.go:699-708, with `certificate.revoke`, pki.go:195-200: the first certificate with this serial. -/
def setRev (text : Str) (r : Rev) : List Cert → Option (Cert × List Cert)
  | [] => none
  | c :: t =>
    if c.text = text then some (c, { c with rev := some r } :: t)
    else
      match setRev text r t with
      | none => none
      | some (x, t') => some (x, c :: t')

/-- `RevokeCertificate`, pki.go:680-710. -/
def revoke (s : State) (rid serial reason now : Nat) (c : Commit) : State :=
  if c = .openFails then s
  else
    let r := reread s
    match setRev (snText serial) ⟨trunc now, reason⟩ r.issued with
    | none => { s with db := r }
    | some (x, l) =>
      let s1 := commit s c { r with issued := l, revoked := snText serial :: r.revoked }
      if c = .ok then { s1 with log := .revoked rid serial x.notAfter now :: s.log } else s1

/-- The first certificate with a textual serial (`slices.IndexFunc`). -/
def findText (text : Str) (l : List Cert) : Option Cert := l.find? fun c => decide (c.text = text)

/-- `findCert`, http.go:511-527. -/
def findCert (db : Db) (text : Str) : Option Cert :=
  match findText text db.issued with
  | none => none
  | some c => if c.rev.isSome then none else some c

/-- `handleRevokeCert` up to the revocation, http.go:430-447; `isAdmin` is computed at
http.go:190-197. -/
def revokeCheck (cfg : Cfg) (s : State) (rid : Nat) (email : Str) (adminArg : Bool) (sn : Str)
    (now : Nat) : State :=
  let isAdmin := adminArg && decide (email ∈ cfg.admins)
  match findCert s.db sn with
  | none => s
  | some c =>
    if c.notAfter < now then s
    else if !isAdmin && !decide (email ∈ c.emails) then s
    else
      { s with pending := (rid, c.serial) :: s.pending
               log := .asked rid email isAdmin c now :: s.log }

/-- The second half of `handleRevokeCert`, http.go:448. -/
def revokeDo (s : State) (rid now : Nat) (c : Commit) : State :=
  match s.pending.find? fun p => decide (p.1 = rid) with
  | none => s
  | some p => revoke { s with pending := s.pending.filter fun q => decide (q.1 ≠ rid) } rid p.2 0 now c

/-! ## Answers -/

/-- The latest revocation time, pki.go:501-506 (zero time if none). -/
def lastRev (l : List Cert) : Nat :=
  l.foldl (fun m c => match c.rev with | none => m | some r => max m r.time) 0

/-- The entries of a new list, pki.go:528-544. -/
def entries (l : List Cert) (now : Nat) : List (Nat × Rev) :=
  l.filterMap fun c =>
    match c.rev with
    | none => none
    | some r => if c.notAfter < now then none else some (c.serial, r)

/-- A new list, pki.go:517-556. -/
def newCrl (db : Db) (now : Nat) : Crl :=
  ⟨db.crlNumber + 1, trunc now, trunc (now + 3600000), entries db.issued now⟩

/-- Whether the last list is served again, pki.go:500-515. -/
def reuse (db : Db) (now : Nat) : Option Crl :=
  match db.lists.getLast? with
  | none => none
  | some l =>
    if ¬ l.thisUpd < lastRev db.issued ∧ now < l.nextUpd + 1800000 then some l else none

/-- `RevocationList`, pki.go:476-569. -/
def serveCrl (s : State) (now : Nat) (c : Commit) : State :=
  if c = .openFails then s
  else
    let r := reread s
    match reuse r now with
    | some l => { s with db := r, log := .crl l now :: s.log }
    | none =>
      if c = .buildFails then { s with db := { r with crlNumber := r.crlNumber + 1 } }
      else
        let l := newCrl r now
        let lists := r.lists ++ [l]
        let s1 := commit s c
          { r with crlNumber := r.crlNumber + 1, lists := lists.drop (lists.length - 128) }
        if c = .ok then { s1 with log := .crl l now :: s.log } else s1

/-- `OCSPResponse`, pki.go:583-676; `issuerOk` is the comparison of the issuer hashes. -/
def ocspStatus (db : Db) (issuerOk : Bool) (z : Int) : Status :=
  if !issuerOk then .unknown
  else
    match findText (snText z) db.issued with
    | none => .revoked
    | some c => if c.rev.isSome then .revoked else .good

/-- `IsRevoked`, pki.go:572-580. -/
def isRevoked (db : Db) (z : Int) : Bool := decide (snText z ∈ db.revoked)

inductive Op where
  | request (email : Str) (inp : Csr) (sn now : Nat) (c : Commit)
  | delegate (cn : Str) (sn now life : Nat) (c : Commit)
  | revokeCheck (rid : Nat) (email : Str) (adminArg : Bool) (sn : Str) (now : Nat)
  | revokeDo (rid now : Nat) (c : Commit)
  | crl (now : Nat) (c : Commit)
  | ocsp (issuerOk : Bool) (z : Int)
  | check (z : Int)
  | reload
  | restart

/-- The time of a step. -/
def Op.now (s : State) : Op → Nat
  | .request _ _ _ now _ => now
  | .delegate _ _ now _ _ => now
  | .revokeCheck _ _ _ _ now => now
  | .revokeDo _ now _ => now
  | .crl now _ => now
  | _ => s.clock

def act (cfg : Cfg) (s : State) : Op → State
  | .request email inp sn now c => sign s (issueCert (userCsr email inp) sn now) (some email) c
  | .delegate cn sn now life c => sign s (caCert cn sn now life) none c
  | .revokeCheck rid email adminArg sn now => revokeCheck cfg s rid email adminArg sn now
  | .revokeDo rid now c => revokeDo s rid now c
  | .crl now c => serveCrl s now c
  | .ocsp issuerOk z => { s with log := .ocsp issuerOk z (ocspStatus s.db issuerOk z) :: s.log }
  | .check z => { s with log := .check z (isRevoked s.db z) :: s.log }
  | .reload => { s with db := s.disk }
  | .restart => { s with db := s.disk, pending := [] }

def step (cfg : Cfg) (s : State) (o : Op) : State := act cfg { s with clock := o.now s } o

def run (cfg : Cfg) : List Op → State → State
  | [], s => s
  | o :: os, s => run cfg os (step cfg s o)

end Verif.Pki
