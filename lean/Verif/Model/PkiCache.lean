/-!
# Parsed certificates that are kept in memory

Model of `certificate.parse` (`proxy/internal/pki/pki.go:176-186`), which keeps the parsed certificate
in an unexported field, of `open` (212-222), and of those who use the delegate certificate:
`maybeRotateDelegateCert` (387-455), `signCertificate` (772-821), the signing half of `RevocationList`
(476-569) and `OCSPResponse` (583-676).

`OpenForUpdate(file, &m.db)` decodes the file into the structure in memory, whose lists contain
pointers to certificates. What encoding/json does then is a parameter: with `reuse` (as Go 1 does,
golang.org/issue/21092) element number `i` is decoded into the object that element number `i` pointed to
before, of which only the exported fields change; without it into a new object.

Simplifications: as in `Verif.Model.PkiKeys`, without what does not concern delegates; keys are numbers;
the CA key and its signatures are left out; all steps are those of one process, so that no list in the
file is longer than the one in memory unless the process has just started. Certificates that are kept in
two lists are two objects here: the list of issued certificates is decoded last and in the order in
which it grew, so that it puts the right contents into the objects it shares with the list of delegates.
-/

namespace Verif.PkiCache

/-- A delegate certificate: its key, and its dates in milliseconds. -/
structure Crt where
  pub : Nat
  nb : Nat
  na : Nat
  deriving DecidableEq, Repr

/-- `certificate`, pki.go:167-174: `Raw` and `cert`. -/
structure Obj where
  raw : Crt
  cert : Option Crt := none
  deriving DecidableEq, Repr

/-- A revocation list: the certificate stored and served with it, and the key it was signed with. -/
structure Crl where
  cert : Crt
  signer : Nat
  nextUpd : Nat
  deriving DecidableEq, Repr

structure Disk where
  dkey : Nat := 0
  dcerts : List Crt := []
  lastCrl : Option Crl := none
  deriving DecidableEq, Repr

structure Mem where
  dkey : Nat := 0
  dcerts : List Obj := []
  lastCrl : Option Crl := none
  deriving DecidableEq, Repr

inductive Event where
  | crl (l : Crl)
  | ocsp (cert : Crt) (signer : Nat)
  | panic
  deriving DecidableEq, Repr

structure St where
  mem : Mem := {}
  disk : Disk := {}
  log : List Event := []
  deriving DecidableEq, Repr

/-- pki.go:176-186: the certificate, and the object afterwards. -/
def Obj.parse (o : Obj) : Crt × Obj :=
  match o.cert with
  | some c => (c, o)
  | none => (o.raw, { o with cert := some o.raw })

/-- A list that is decoded into a list of objects. -/
def decode (reuse : Bool) : List Obj → List Crt → List Obj
  | _, [] => []
  | [], c :: cs => ⟨c, none⟩ :: decode reuse [] cs
  | o :: os, c :: cs => ⟨c, if reuse then o.cert else none⟩ :: decode reuse os cs

/-- `open`, pki.go:212-222. -/
def St.load (reuse : Bool) (s : St) : St :=
  { s with mem := { dkey := s.disk.dkey, dcerts := decode reuse s.mem.dcerts s.disk.dcerts,
                    lastCrl := s.disk.lastCrl } }

/-- A commit: the exported fields are written to the file. -/
def St.commit (s : St) (ok : Bool) : St :=
  if ok then { s with disk := ⟨s.mem.dkey, s.mem.dcerts.map (·.raw), s.mem.lastCrl⟩ } else s

/-- The first certificate of the list, parsed: pki.go:396, 516, 602. -/
def St.first (s : St) : Option (Crt × St) :=
  match s.mem.dcerts with
  | [] => none
  | o :: os => some (o.parse.1, { s with mem := { s.mem with dcerts := o.parse.2 :: os } })

/-- pki.go:73-76: ten days, one hour. -/
def delegateLife : Nat := 864000000
def crlPeriod : Nat := 3600000

/-- pki.go:398 -/
def pastHalf (c : Crt) (now : Nat) : Bool := decide (c.nb + (c.na - c.nb) / 2 < now)

/-- pki.go:405-454 and 772-821: a new certificate for the new key `key`. -/
def St.rotate (reuse : Bool) (s : St) (key now : Nat) (ok : Bool) : St :=
  let s := s.load reuse
  { s with mem := { s.mem with dkey := key
                               dcerts := ⟨⟨key, now, now + delegateLife⟩, none⟩ :: s.mem.dcerts.take 1 } }.commit ok

/-- `maybeRotateDelegateCert`, pki.go:387-455. -/
def St.maybeRotate (reuse : Bool) (s : St) (key now : Nat) (ok : Bool) : St :=
  match s.first with
  | none => s.rotate reuse key now ok
  | some (c, s) => if pastHalf c now then s.rotate reuse key now ok else s

/-- pki.go:516-567: a new list. -/
def St.newList (s : St) (now : Nat) (ok : Bool) : St :=
  match s.first with
  | none => { s with log := .panic :: s.log }
  | some (c, s) =>
    let l : Crl := ⟨c, s.mem.dkey, now + crlPeriod⟩
    let s := { s with mem := { s.mem with lastCrl := some l } }.commit ok
    if ok then { s with log := .crl l :: s.log } else s

/-- pki.go:500-515: the last list, if nothing was revoked since and it is not too old. -/
def reusable (m : Mem) (upToDate : Bool) (now : Nat) : Option Crl :=
  match m.lastCrl with
  | some l => if upToDate && decide (now < l.nextUpd + crlPeriod / 2) then some l else none
  | none => none

/-- `RevocationList` after the rotation, pki.go:481-569. -/
def St.list (reuse : Bool) (s : St) (upToDate : Bool) (now : Nat) (ok : Bool) : St :=
  let s := s.load reuse
  match reusable s.mem upToDate now with
  | some l => { s with log := .crl l :: s.log }
  | none => s.newList now ok

/-- `OCSPResponse` after the rotation, pki.go:591-676, which does not read the file. -/
def St.ocsp (s : St) : St :=
  match s.first with
  | none => { s with log := .panic :: s.log }
  | some (c, s) => { s with log := .ocsp c s.mem.dkey :: s.log }

/-- The critical sections. A request for a revocation list or an OCSP answer is `rotate` followed by
`list` or `ocsp` if that returned no error; the sections of other requests may come in between. Any order
is allowed here. -/
inductive Op where
  /-- a new process -/
  | start
  /-- `key`: a new key in case one is needed; `ok`: whether a new delegate could be stored -/
  | rotate (key now : Nat) (ok : Bool)
  /-- `upToDate`: nothing was revoked since the last list; `ok`: whether a new list could be stored -/
  | list (now : Nat) (upToDate ok : Bool)
  | ocsp
  /-- any other critical section, such as those of `IssueCertificate` and `RevokeCertificate`; they do not
  change the delegates -/
  | other (ok : Bool)
  deriving DecidableEq, Repr

def step (reuse : Bool) (s : St) : Op → St
  | .start => ({ s with mem := {} } : St).load reuse
  | .rotate key now ok => s.maybeRotate reuse key now ok
  | .list now u ok => s.list reuse u now ok
  | .ocsp => s.ocsp
  | .other ok => (s.load reuse).commit ok

def run (reuse : Bool) : List Op → St → St
  | [], s => s
  | o :: os, s => run reuse os (step reuse s o)

end Verif.PkiCache
