/-
Model of the keys of the certificate authority: `proxy/internal/pki/pki.go`, `New` and `initCA`
(126-143, 224-316), `open` (212-222), `maybeRotateDelegateCert` (387-455), the signing half of
`RevocationList` (476-569) and `OCSPResponse` (583-676), and `signCertificate` (772-821). What the lists
and answers say about certificates is in `Verif.Model.Pki`.

Keys are numbers, 0 is a missing or wiped key; a certificate records the key it is for and the key that
signed it. Steps are the critical sections under `m.mu`, and the check of `maybeRotateDelegateCert`,
which reads `m.db` without the lock. Times are milliseconds; dates in certificates have whole seconds.
`OpenForUpdate(file, &m.db)` replaces what is in memory by what is in the file; a failed commit leaves
memory as it is. Key generation and random numbers do not fail.
-/
namespace Verif.PkiKeys

structure Crt where
  pub : Nat
  signer : Nat
  nb : Nat
  na : Nat
deriving DecidableEq, Repr

/-- A revocation list with its certificate (`revocationList`, pki.go:207-210); `signer` is the key it is
signed with. -/
structure Crl where
  cert : Crt
  signer : Nat
  thisUpd : Nat
  nextUpd : Nat
deriving DecidableEq, Repr

/-- `certificateAuthority`, pki.go:155-165. Of the revocation lists only the last one is kept. -/
structure Db where
  key : Nat := 0
  ca : Option Crt := none
  dkey : Nat := 0
  dcerts : List Crt := []
  issued : List Crt := []
  lastCrl : Option Crl := none
deriving DecidableEq, Repr

/-- Outcome of the storage operations and of `x509.Create…`. -/
inductive Commit where
  | ok
  | openFails
  | buildFails
  | fails
deriving DecidableEq, Repr

/-- A request for a revocation list or an OCSP answer: what it does next, and when it started. -/
inductive Phase where
  | rotating (t0 : Nat)
  | ready (t0 : Nat)
deriving DecidableEq, Repr

inductive Event where
  | ca (c : Crt) (t : Nat)
  | signed (c : Crt) (t : Nat)
  | crl (l : Crl) (t : Nat)
  | ocsp (cert : Crt) (signer : Nat) (t : Nat)
  | panic (t : Nat)
deriving DecidableEq, Repr

structure St where
  mem : Db := {}
  disk : Db := {}
  up : Bool := false
  threads : List (Nat × Phase) := []
  clock : Nat := 0
  log : List Event := []
deriving DecidableEq, Repr

/-- Dates are encoded in whole seconds. -/
def trunc (t : Nat) : Nat := t / 1000 * 1000

/-- pki.go:73-76: ten years, ten days, one hour. -/
def caLife : Nat := 315360000000
def delegateLife : Nat := 864000000
def crlPeriod : Nat := 3600000

/-- pki.go:276 and 398: more than half of the lifetime has passed. -/
def pastHalf (c : Crt) (now : Nat) : Bool := decide (c.nb + (c.na - c.nb) / 2 < now)

/-- A certificate made at `now`. -/
def mkCrt (pub signer now life : Nat) : Crt := ⟨pub, signer, trunc now, trunc (now + life)⟩

/-- The end of every critical section (pki.go:217-221): the private key is wiped in memory, after the
structure was written to the file if `save` is set. -/
def St.close (s : St) (db : Db) (save : Bool) : St :=
  { s with mem := { db with key := 0 }, disk := if save then db else s.disk }

/-- pki.go:244-250: a key is made if there is none. -/
def initKey (db : Db) (newKey : Nat) : Db := if db.key = 0 then { db with key := newKey } else db

/-- pki.go:268-281: whether a CA certificate has to be made. -/
def needCA (db : Db) (now : Nat) : Bool :=
  match db.ca with
  | none => true
  | some c => pastHalf c now

/-- pki.go:283-313. -/
def initCert (db : Db) (now : Nat) : Db :=
  let c := mkCrt db.key db.key now caLife
  { db with ca := some c, issued := db.issued ++ [c] }

/-- `initCA` on what is in the file: the new structure, and whether it changed. -/
def initDb (db : Db) (newKey now : Nat) : Db × Bool :=
  let d := initKey db newKey
  if needCA d now then (initCert d now, true) else (d, decide (db.key = 0))

/-- `New` in a new process (pki.go:126-143, 224-316): without a CA the proxy does not start. -/
def St.start (s : St) (newKey now : Nat) (c : Commit) : St :=
  let s := { s with mem := {}, up := false, threads := [] }
  if c = .openFails ∨ c = .buildFails then s
  else
    let r := initDb s.disk newKey now
    if c = .fails ∧ r.2 then s.close r.1 false
    else
      let s1 := s.close r.1 r.2
      match r.1.ca with
      | some ca => { s1 with up := true, log := .ca ca now :: s.log }
      | none => s1

/-- `signCertificate` (pki.go:772-821) for a key `pub`, and `next`, which may put the certificate in the
structure (pki.go:444-453). The CA certificate only passes its name on. -/
def St.sign (s : St) (pub now0 now life : Nat) (next : Db → Crt → Db) (c : Commit) : St :=
  if c = .openFails then s
  else if c = .buildFails then s.close s.disk false
  else
    let crt := mkCrt pub s.disk.key now0 life
    let db := next { s.disk with issued := s.disk.issued ++ [crt] } crt
    if c = .ok then { s.close db true with log := .signed crt now :: s.log } else s.close db false

/-- pki.go:444-453: the new delegate comes first, and one old certificate is kept. -/
def putDelegate (key : Nat) (db : Db) (c : Crt) : Db :=
  { db with dkey := key, dcerts := c :: db.dcerts.take 1 }

/-- pki.go:392-404, without the lock. -/
def needDelegate (db : Db) (now : Nat) : Bool :=
  match db.dcerts with
  | [] => true
  | c :: _ => pastHalf c now

/-- pki.go:387-404: the first part of a request for a revocation list or an OCSP answer. -/
def St.begin (s : St) (tid now : Nat) : St :=
  { s with threads := (tid, if needDelegate s.mem now then Phase.rotating now else Phase.ready now) ::
      s.threads.filter fun p => p.1 ≠ tid }

/-- pki.go:405-454: the delegate certificate is replaced; an error ends the request. -/
def St.rotate (s : St) (tid key now : Nat) (c : Commit) : St :=
  match s.threads.lookup tid with
  | some (.rotating t0) =>
    let rest := s.threads.filter fun p => p.1 ≠ tid
    let s1 := s.sign key t0 now delegateLife (putDelegate key) c
    if c = .ok then { s1 with threads := (tid, .ready t0) :: rest } else { s1 with threads := rest }
  | _ => s

/-- Whether the last list is served again (pki.go:500-515); `upToDate`: nothing was revoked since. -/
def reusable (db : Db) (upToDate : Bool) (now : Nat) : Option Crl :=
  match db.lastCrl with
  | some l => if upToDate && decide (now < l.nextUpd + crlPeriod / 2) then some l else none
  | none => none

/-- The rest of `RevocationList` (pki.go:481-568). -/
def St.crl (s : St) (tid : Nat) (upToDate : Bool) (now : Nat) (c : Commit) : St :=
  match s.threads.lookup tid with
  | some (.ready _) =>
    let s := { s with threads := s.threads.filter fun p => p.1 ≠ tid }
    if c = .openFails then s
    else
      match reusable s.disk upToDate now with
      | some l => { s.close s.disk false with log := .crl l now :: s.log }
      | none =>
        match s.disk.dcerts with
        | [] => { s.close s.disk false with log := .panic now :: s.log }
        | d :: _ =>
          if c = .buildFails then s.close s.disk false
          else
            let l : Crl := ⟨d, s.disk.dkey, trunc now, trunc (now + crlPeriod)⟩
            let db := { s.disk with lastCrl := some l }
            if c = .ok then { s.close db true with log := .crl l now :: s.log } else s.close db false
  | _ => s

/-- The rest of `OCSPResponse` (pki.go:591-676), which uses what is in memory. -/
def St.ocsp (s : St) (tid now : Nat) (c : Commit) : St :=
  match s.threads.lookup tid with
  | some (.ready _) =>
    let s := { s with threads := s.threads.filter fun p => p.1 ≠ tid }
    match s.mem.dcerts with
    | [] => { s with log := .panic now :: s.log }
    | d :: _ => if c = .ok then { s with log := .ocsp d s.mem.dkey now :: s.log } else s
  | _ => s

/-- Any other critical section, such as `RevokeCertificate` (pki.go:680-710), reads the file. -/
def St.other (s : St) (c : Commit) : St := if c = .openFails then s else s.close s.disk false

inductive Op where
  | start (newKey now : Nat) (c : Commit)
  | issue (pub now0 now : Nat) (c : Commit)
  | begin (tid now : Nat)
  | rotate (tid key now : Nat) (c : Commit)
  | crl (tid : Nat) (upToDate : Bool) (now : Nat) (c : Commit)
  | ocsp (tid now : Nat) (c : Commit)
  | other (now : Nat) (c : Commit)
deriving DecidableEq, Repr

def Op.now : Op → Nat
  | .start _ t _ => t
  | .issue _ _ t _ => t
  | .begin _ t => t
  | .rotate _ _ t _ => t
  | .crl _ _ t _ => t
  | .ocsp _ t _ => t
  | .other t _ => t

/-- Only a running proxy serves requests. `IssueCertificate` (pki.go:737-769) reads the clock before it
waits for the lock. -/
def act (s : St) : Op → St
  | .start k now c => s.start k now c
  | .issue pub now0 now c => if s.up then s.sign pub now0 now caLife (fun db _ => db) c else s
  | .begin tid now => if s.up then s.begin tid now else s
  | .rotate tid key now c => s.rotate tid key now c
  | .crl tid u now c => s.crl tid u now c
  | .ocsp tid now c => s.ocsp tid now c
  | .other _ c => if s.up then s.other c else s

def step (s : St) (o : Op) : St := act { s with clock := o.now } o

def run : List Op → St → St
  | [], s => s
  | o :: os, s => run os (step s o)

end Verif.PkiKeys
