import Verif.Model.Assoc

/-!
# Passkeys

Model of `proxy/internal/passkeys/manager.go`: challenges, registration (`attestationOptions`
778-826, `processAttestation` 828-921), login (`assertionOptions` 923-954, `processAssertion`
956-1044, "Check" and "AddKey" in `HandleCallback` 406-472), key deletion (`deleteKey` 718-744 and
`ManageKeys` 512-660).

The manager is a state machine. Its steps are the critical sections under `m.mu`; `m.vacuum()` is
a critical section of its own, run at the start of each ceremony request (its time is remembered
in `vacs`). The log lists what the outside world sees, newest first.

Simplifications:
* hashes are injective: a relying party hash is a number for a host name (`rpHash`), and the
  claim `passkey_hash` is the credential id itself;
* challenges, user handles, credential ids and public keys are numbers; base64 is left out;
* claims (a Go map) are a record of the ones that are read, plus `rest` for all others (an absent
  `sub` is `none`; `sid` tells whether the session id is a string); `reflect.DeepEqual` is equality;
* a signature is checked over the client data and authenticator data (`Msg`); the JSON and CBOR
  decoding of the request is done (the authenticator data parser has its own model, `Authdata`);
* `token`, the claims of the other provider's cookie, is what that cookie's validation returned;
* POST and `x-csrf-check` tests, which only refuse requests, are left out;
* storage: the library is not part of the repository. `OpenForUpdate(file, &m.db)` decodes the
  file over the maps in memory (`overlay`); a successful commit writes the maps; a failed commit or
  a rollback leaves memory as it is. The step `reload` drops everything that is only in memory, so
  that the runs include a library that replaces the maps instead of decoding over them. `restart`
  does the same and forgets the challenges.
-/

namespace Verif.Passkey

abbrev Str := List Char

structure Claims where
  sub : Option Str
  email : Option Str
  iat : Option Nat
  hhash : Option Nat
  passkey : Option Nat
  sid : Bool
  rest : Nat
  deriving DecidableEq, Repr

/-- `userKey`, manager.go:83-91. -/
structure Key where
  id : Nat
  pub : Nat
  rp : Nat
  deriving DecidableEq, Repr

/-- `user`, manager.go:77-81; the handle is the key of the map. -/
structure User where
  keys : List Key
  claims : Claims
  deriving DecidableEq, Repr

/-- `m.db`, manager.go:141-144. -/
structure Db where
  handles : List (Nat × User)
  subjects : List (Str × Nat)
  deriving DecidableEq, Repr

/-- `challenge`, manager.go:154-158; `claims` is nil for an assertion. -/
structure Challenge where
  created : Nat
  claims : Option Claims
  uid : Nat
  deriving DecidableEq, Repr

/-- Where a key is registered: the first registration (`HandleCallback`) or the key management
page (`ManageKeys`, `allowNewKey`). -/
inductive Page where
  | first
  | manage
  deriving DecidableEq, Repr

/-- Client data and authenticator data as sent by the browser: type, challenge, origin, relying
party hash, user presence, user verification. Type 0 is "webauthn.create", 1 is "webauthn.get". This is also
what a signature is made over. -/
structure Data where
  typ : Nat
  chal : Nat
  origin : Str
  rp : Nat
  up : Bool
  uv : Bool
  deriving DecidableEq, Repr

structure Cfg where
  rpHash : Str → Nat
  /-- `net.SplitHostPort`: the host without the port. -/
  hostOnly : Str → Str
  /-- hash of a full host, for the `hhash` claim. -/
  hhash : Str → Nat
  /-- host of the endpoint, with the port of the request's host (manager.go:518-528). -/
  epHost : Str → Str
  /-- `subjectIsAllowed`, manager.go:699-705. -/
  allowed : Str → Bool
  /-- `RefreshInterval`, 0 when off. -/
  refresh : Nat
  /-- `verifySignature`. -/
  verify : Nat → Data → Nat → Bool

/-- `args` of `processAttestation`; `creds` are the attested credentials. -/
structure AttReq where
  data : Data
  creds : Option (Nat × Nat)
  deriving DecidableEq, Repr

/-- `args` of `processAssertion`. -/
structure AsrtReq where
  data : Data
  handle : Option Nat
  loginID : Str
  cred : Nat
  sig : Nat
  deriving DecidableEq, Repr

/-- Outcome of the storage operations. -/
inductive Commit where
  | ok
  /-- `OpenForUpdate` fails. -/
  | openFails
  /-- the commit fails -/
  | fails
  deriving DecidableEq, Repr

inductive Event where
  | issued (chal : Nat) (claims : Option Claims) (t : Nat)
  /-- a key was added; `cookie` tells whether a login cookie was issued -/
  | added (page : Page) (email : Str) (handle : Nat) (key : Key) (claims : Claims) (host : Str)
      (req : AttReq) (t0 now : Nat) (cookie : Bool)
  /-- a signed assertion was accepted for the user with this handle; `cookie` tells whether a login
  cookie was issued (otherwise the identity has to be refreshed first, or is incomplete) -/
  | login (handle : Nat) (key : Key) (claims : Claims) (req : AsrtReq) (t0 now : Nat)
      (cookie : Bool)
  deriving DecidableEq, Repr

structure State where
  challenges : List (Nat × Challenge)
  /-- in memory -/
  db : Db
  /-- in the file -/
  disk : Db
  /-- times of the calls of `vacuum` -/
  vacs : List Nat
  log : List Event

def init : State := ⟨[], ⟨[], []⟩, ⟨[], []⟩, [], []⟩

/-- `vacuum`, manager.go:170-179. -/
def vacuum (t : Nat) (s : State) : State :=
  { s with challenges := s.challenges.filter fun p => ¬ (p.2.created + 300 < t)
           vacs := t :: s.vacs }

/-- `OpenForUpdate(passkeyFile, &m.db)`. -/
def reread (s : State) : Db :=
  ⟨Assoc.overlay s.disk.handles s.db.handles, Assoc.overlay s.disk.subjects s.db.subjects⟩

/-- `commit(true, nil)` after the maps in memory became `db`. -/
def commit (s : State) (c : Commit) (db : Db) : State :=
  if c = .ok then { s with db := db, disk := db } else { s with db := db }

/-- The tests of `ManageKeys`, manager.go:529-565. -/
def manageOk (cfg : Cfg) (host : Str) (c : Claims) (now : Nat) : Bool :=
  decide (cfg.epHost host = host) && decide (c.hhash = some (cfg.hhash host)) &&
    (match c.iat with | none => false | some i => decide (now ≤ i + 600)) && c.passkey.isSome

/-- When `setAuthToken` (manager.go:746-776) issues a cookie: subject, email and session id are
strings and the first two are not empty (cookiemanager.go:65-67). -/
def cookieOk (c : Claims) : Bool :=
  (match c.sub with | none => false | some x => decide (x ≠ [])) &&
    (match c.email with | none => false | some x => decide (x ≠ [])) && c.sid

inductive Op where
  | vacuum (t : Nat)
  | reload
  | restart
  | attOptions (page : Page) (now t : Nat) (claims : Claims) (host : Str) (chal uid : Nat)
  | asrtOptions (t : Nat) (chal : Nat)
  | attest (page : Page) (now t0 : Nat) (claims : Claims) (host : Str) (req : AttReq) (c : Commit)
  | assert (now t0 : Nat) (token : Option Claims) (req : AsrtReq) (c : Commit)
  | delete (now : Nat) (claims : Claims) (host : Str) (id : Nat) (c : Commit)

/-- The user handle `attestationOptions` puts in the challenge, manager.go:799-818. -/
def attUid (db : Db) (e : Str) (uid : Nat) : Option Nat :=
  match Assoc.get db.subjects e with
  | none => some uid
  | some h =>
    match Assoc.get db.handles h with
    | none => none
    | some _ => some h

/-- `attestationOptions`, manager.go:778-826. -/
def attOptions (s : State) (t : Nat) (claims : Claims) (chal uid : Nat) : State :=
  match claims.email with
  | none => s
  | some e =>
    match attUid s.db e uid with
    | none => s
    | some u =>
      { s with challenges := Assoc.put s.challenges chal ⟨t, some claims, u⟩
               log := .issued chal (some claims) t :: s.log }

/-- `assertionOptions`, manager.go:923-954 (the list of allowed credentials is left out). -/
def asrtOptions (s : State) (t : Nat) (chal : Nat) : State :=
  { s with challenges := Assoc.put s.challenges chal ⟨t, none, 0⟩
           log := .issued chal none t :: s.log }

/-- The user record a key is added to, manager.go:891-903, and the maps with it. -/
def ensureUser (db : Db) (email : Str) (uid : Nat) (claims : Claims) : Nat × User × Db :=
  let fresh : Nat × User × Db :=
    let u : User := ⟨[], claims⟩
    (uid, u, ⟨Assoc.put db.handles uid u, Assoc.put db.subjects email uid⟩)
  match Assoc.get db.subjects email with
  | none => fresh
  | some h =>
    match Assoc.get db.handles h with
    | none => fresh
    | some u => (h, u, db)

/-- The part of `processAttestation` that looks at the request only, manager.go:846-883: the
attested credential if all is well. -/
def attCheck (cfg : Cfg) (host : Str) (claims : Claims) (r : AttReq) (ch : Challenge) :
    Option (Nat × Nat) :=
  if ch.claims ≠ some claims then none
  else if r.data.rp ≠ cfg.rpHash (cfg.hostOnly host) then none
  else if !r.data.up then none
  else if !r.data.uv then none
  else r.creds

/-- `processAttestation`, manager.go:828-921. On the first page a login cookie follows,
manager.go:472. -/
def attest (cfg : Cfg) (s : State) (page : Page) (now t0 : Nat) (claims : Claims) (host : Str)
    (r : AttReq) (c : Commit) : State :=
  match claims.email with
  | none => s
  | some email =>
    if r.data.typ ≠ 0 then s
    else if r.data.origin ≠ "https://".toList ++ host then s
    else
      let s1 : State := { s with challenges := Assoc.del s.challenges r.data.chal }
      match Assoc.get s.challenges r.data.chal with
      | none => s1
      | some ch =>
        match attCheck cfg host claims r ch with
        | none => s1
        | some (id, pub) =>
          if c = .openFails then s1
          else
            match ensureUser (reread s) email ch.uid claims with
            | (h, u, db) =>
              if page = .first ∧ u.keys ≠ [] then { s1 with db := db }
              else
                let k : Key := ⟨id, pub, r.data.rp⟩
                let db' : Db :=
                  ⟨Assoc.put db.handles h { u with keys := u.keys ++ [k] }, db.subjects⟩
                let s2 := commit s1 c db'
                { s2 with
                  log := .added page email h k claims host r t0 now
                    (decide (page = .first) && decide (c = .ok) &&
                      cookieOk { claims with passkey := some id }) :: s.log }

/-- The stored claims after a login: refreshed from the other provider's cookie if it is for the
same subject and email, manager.go:1033-1038. -/
def refreshed (u : User) (token : Option Claims) : Claims :=
  match token with
  | none => u.claims
  | some nc => if nc.sub = u.claims.sub ∧ nc.email = u.claims.email then nc else u.claims

/-- The refresh test of "Check", manager.go:422-441. -/
def recent (cfg : Cfg) (c : Claims) (now : Nat) : Bool :=
  if cfg.refresh = 0 then true
  else
    match c.iat with
    | none => false
    | some i => decide (now ≤ i + cfg.refresh)

/-- The handle of the user who logs in, manager.go:1000-1005. -/
def loginHandle (db : Db) (r : AsrtReq) : Option Nat :=
  match r.handle with
  | some h => some h
  | none => if r.loginID = [] then none else Assoc.get db.subjects r.loginID

/-- Find the credential and check the signature, manager.go:1000-1030. -/
def asrtCheck (cfg : Cfg) (db : Db) (r : AsrtReq) : Option (Nat × User × Key) :=
  match loginHandle db r with
  | none => none
  | some h =>
    match Assoc.get db.handles h with
    | none => none
    | some u =>
      match u.keys.find? fun k => decide (k.id = r.cred) with
      | none => none
      | some k =>
        if r.data.rp ≠ k.rp then none
        else if !cfg.verify k.pub r.data r.sig then none
        else some (h, u, k)

/-- `processAssertion`, manager.go:956-1044, and "Check", manager.go:406-443. -/
def assert (cfg : Cfg) (s : State) (now t0 : Nat) (token : Option Claims) (r : AsrtReq)
    (c : Commit) : State :=
  if r.data.typ ≠ 1 then s
  else if !r.data.up then s
  else if !r.data.uv then s
  else
    match Assoc.get s.challenges r.data.chal with
    | none => s
    | some _ =>
      let s1 : State := { s with challenges := Assoc.del s.challenges r.data.chal }
      if c = .openFails then s1
      else
        match asrtCheck cfg (reread s) r with
        | none => { s1 with db := reread s }
        | some (h, u, k) =>
          let cl := refreshed u token
          let db' : Db :=
            ⟨Assoc.put (reread s).handles h { u with claims := cl }, (reread s).subjects⟩
          let out : Claims := { cl with passkey := some k.id }
          let s2 := commit s1 c db'
          if c = .ok then
            { s2 with log := .login h k out r t0 now (recent cfg out now && cookieOk out) :: s.log }
          else s2

/-- `deleteKey`, manager.go:718-744, after `OpenForUpdate`. -/
def deleteKey (db : Db) (email : Str) (id : Nat) : Option Db :=
  match Assoc.get db.subjects email with
  | none => none
  | some h =>
    match Assoc.get db.handles h with
    | none => none
    | some u => some ⟨Assoc.put db.handles h
        { u with keys := u.keys.filter fun k => decide (k.id ≠ id) }, db.subjects⟩

/-- "DeleteKey", manager.go:608-635. -/
def delete (cfg : Cfg) (s : State) (now : Nat) (claims : Claims) (host : Str) (id : Nat)
    (c : Commit) : State :=
  if !manageOk cfg host claims now then s
  else if claims.passkey = some id then s
  else if c = .openFails then s
  else
    match deleteKey (reread s) (claims.email.getD []) id with
    | none => { s with db := reread s }
    | some db => commit s c db

def step (cfg : Cfg) (s : State) : Op → State
  | .vacuum t => vacuum t s
  | .reload => { s with db := s.disk }
  | .restart => { s with db := s.disk, challenges := [] }
  | .attOptions page now t claims host chal uid =>
    if page = .manage ∧ manageOk cfg host claims now = false then s
    else attOptions s t claims chal uid
  | .asrtOptions t chal => asrtOptions s t chal
  | .attest page now t0 claims host req c =>
    match page with
    | .first =>
      -- HandleCallback "AddKey", manager.go:445-472
      if !cfg.allowed (claims.email.getD []) then s
      else attest cfg s .first now t0 claims host req c
    | .manage =>
      -- ManageKeys "AddKey", manager.go:587-606
      if !manageOk cfg host claims now then s
      else attest cfg s .manage now t0 claims host req c
  | .assert now t0 token req c => assert cfg s now t0 token req c
  | .delete now claims host id c => delete cfg s now claims host id c

def run (cfg : Cfg) : List Op → State → State
  | [], s => s
  | o :: os, s => run cfg os (step cfg s o)

end Verif.Passkey
