/-!
# Revoking unused ACME certificates

Model of `proxy/revoke.go:105-164` (`revokeUnusedCertificates`), `46-103` (`RevokeAllCertificates`)
and `190-252` (`acmeAllCerts`).

The clean-up is a thread: it reads the option (without the lock), takes the names under the lock,
reads the cache, asks the ACME server for each key, and deletes the keys. Between these steps the
configuration can change and the cache can get new entries. Failures are parameters. Requests are
logged newest first.

Simplifications: the cache is an association list from key to entry; an entry has already been decoded
(`none`: unreadable, no private key, or no certificate); the account key is an ordinary entry that
`acmeAllCerts` skips by name. `DeleteKeys` removes all or, on failure, none. Go's map iteration order
does not matter because the keys are sorted (`sortKeys` is a parameter that permutes them). A private
key that no parser accepts makes `RevokeCert` panic before the request is sent (see `Model/RevokeAll.lean`);
here this is a step that fails, although it ends the whole process.
-/

namespace Verif.Revoke

abbrev Str := List Char

structure Cert where
  dnsNames : List Str
  notAfter : Nat
  deriving DecidableEq, Repr

structure Cfg where
  /-- `RevokeUnusedCertificates`: absent means true -/
  revoke : Option Bool
  /-- the server names of each backend -/
  backends : List (List Str)
  deriving DecidableEq, Repr

abbrev Cache := List (Str × Option Cert)

def accountKey : Str := "acme_account+key".toList

/-- `acmeAllCerts`, revoke.go:190-252. -/
def allCerts (c : Cache) : List (Str × Cert) :=
  c.filterMap fun e =>
    if e.1 = accountKey then none
    else
      match e.2 with
      | none => none
      | some x => some (e.1, x)

/-- revoke.go:108-115. -/
def names (cfg : Cfg) : List Str := cfg.backends.flatMap id

/-- revoke.go:120-133: the certificates with at least one name, none of which is in `names`. -/
def unused (ns : List Str) (certs : List (Str × Cert)) : List (Str × Cert) :=
  certs.filter fun e => !(e.2.dnsNames.any fun n => decide (n ∈ ns)) && decide (e.2.dnsNames.length > 0)

inductive Event where
  /-- the ACME server was asked to revoke this certificate, and answered -/
  | asked (key : Str) (c : Cert) (ok : Bool) (t : Nat)
  | deleted (keys : List Str)
  deriving DecidableEq, Repr

/-- Where the thread is. -/
inductive Pc where
  | start
  /-- after the option was read -/
  | opt (on : Bool)
  /-- after the names were taken -/
  | names (on : Bool) (ns : List Str)
  /-- in the loop: `rest` is to be asked, `all` to be deleted, `t` is `now` -/
  | loop (all : List Str) (rest : List (Str × Cert)) (t : Nat)
  /-- the loop is over -/
  | delete (all : List Str)
  | done (err : Bool)
  deriving DecidableEq, Repr

structure State where
  cfg : Cfg
  cache : Cache
  pc : Pc
  /-- names taken and option read by the thread, for the record -/
  snap : Option (Bool × List Str)
  log : List Event

inductive Op where
  | reconfigure (cfg : Cfg)
  | store (key : Str) (v : Option Cert)
  /-- a step of the thread; `ok` is whether the operation of this step succeeds, `t` the time when the
  loop starts -/
  | step (ok : Bool) (t : Nat)

/-- One step of `revokeUnusedCertificates`, revoke.go:105-164. -/
def thread (sortKeys : List (Str × Cert) → List (Str × Cert)) (s : State) (ok : Bool) (t : Nat) :
    State :=
  match s.pc with
  | .start => { s with pc := .opt (s.cfg.revoke.getD true) }
  | .opt on => { s with pc := .names on (names s.cfg), snap := some (on, names s.cfg) }
  | .names on ns =>
    if !ok then { s with pc := .done true }
    else
      let l := sortKeys (unused ns (allCerts s.cache))
      if !on then { s with pc := .done false } else { s with pc := .loop (l.map Prod.fst) l t }
  | .loop all rest now =>
    match rest with
    | [] => { s with pc := .delete all }
    | e :: r =>
      if e.2.notAfter < now then { s with pc := .loop all r now }
      else
        { s with log := .asked e.1 e.2 ok now :: s.log
                 pc := if ok then .loop all r now else .done true }
  | .delete all =>
    if ok then
      { s with cache := s.cache.filter fun e => !decide (e.1 ∈ all)
               log := .deleted all :: s.log, pc := .done false }
    else { s with pc := .done true }
  | .done _ => s

def step (sortKeys : List (Str × Cert) → List (Str × Cert)) (s : State) : Op → State
  | .reconfigure c => { s with cfg := c }
  | .store k v => { s with cache := (k, v) :: s.cache.filter fun e => decide (e.1 ≠ k) }
  | .step ok t => thread sortKeys s ok t

def run (sortKeys : List (Str × Cert) → List (Str × Cert)) : List Op → State → State
  | [], s => s
  | o :: os, s => run sortKeys os (step sortKeys s o)

def init (cfg : Cfg) (cache : Cache) : State := ⟨cfg, cache, .start, none, []⟩

end Verif.Revoke
