import Verif.Model.Passkey

/-!
# The HTTP side of passkeys

Model of `HandleCallback` (proxy/internal/passkeys/manager.go:258-494) and `ManageKeys` (manager.go:512-660): which
request is answered with what, and which of the ceremonies of `Verif.Model.Passkey` it runs. Also the contents of the
options given to browsers (manager.go:778-826, 923-954), `keys` 670-697, `subjectIsRegistered` 707-716, and
the host names in the redirects (manager.go:233-247, 518-534).

What a request runs is a list of steps of the passkey model: first `vacuum`, which has its own critical section, then
the ceremony. Whether the ceremony succeeded is read off the log of that model.

Simplifications:
* the values that other parts find out are fields of the request: the nonce (`Verif.Model.Login`), the URL token
  (`Verif.Model.Login`), the login cookie of the other identity provider and the claims of the request
  (`Verif.Model.Token`);
* JSON, base64 and hex are decoded already (`none` is an error);
* IPv6 literals in hosts are left out;
* the text of pages and the shortened URL on it (manager.go:344-346) are left out.
-/

namespace Verif.Ceremony

open Verif.Passkey (Claims Key User Db State AttReq AsrtReq Commit Event Op Page)

abbrev Str := List Char

structure Url where
  host : Str
  rest : Str
  deriving DecidableEq, Repr

/-! ## Hosts -/

/-- `net.SplitHostPort`; `none` is an error. -/
def splitHostPort (s : Str) : Option (Str × Str) :=
  match s.dropWhile (· ≠ ':') with
  | _ :: p => if ':' ∈ p then none else some (s.takeWhile (· ≠ ':'), p)
  | [] => none

/-- The host without the port, manager.go:239-241, 520-522, 866-868. -/
def hostOnly (s : Str) : Str :=
  match splitHostPort s with
  | some (h, _) => h
  | none => s

/-- The port, manager.go:242-245, 523-526. -/
def portOf (s : Str) : Str :=
  match splitHostPort s with
  | some (_, p) => p
  | none => []

/-- The host of the endpoint with the port of the request, manager.go:238-249, 518-529; `ep` is the host in the URL of
the endpoint as it was configured. -/
def epHost (ep host : Str) : Str :=
  if portOf host ≠ [] then hostOnly ep ++ ':' :: portOf host else hostOnly ep

/-- What is configured. -/
structure Site where
  /-- host in the URL `Endpoint` -/
  ep : Str
  rpHash : Str → Nat
  hhash : Str → Nat
  allowed : Str → Bool
  refresh : Nat
  verify : Nat → Passkey.Data → Nat → Bool

def Site.cfg (x : Site) : Passkey.Cfg where
  rpHash := x.rpHash
  hostOnly := hostOnly
  hhash := x.hhash
  epHost := epHost x.ep
  allowed := x.allowed
  refresh := x.refresh
  verify := x.verify

/-! ## Requests and answers -/

structure Req where
  method : Str := "GET".toList
  /-- header `x-csrf-check` -/
  csrf : Str := []
  host : Str := []
  /-- form value `get` -/
  get : Str := []
  /-- the login that belongs to the form value `nonce`: the page and the email address to log in with -/
  nonce : Option (Url × Str) := none
  /-- whether `URLToken` succeeds -/
  tokenOK : Bool := true
  /-- form value `redirect`, and what `ValidateURLToken` says: the page and the claim `email` -/
  redirect : Str := []
  tok : Option (Url × Option Str) := none
  /-- login cookie of the other provider -/
  cookie : Option Claims := none
  /-- claims of the request (`ClaimsFromCtx`) -/
  ctx : Option Claims := none
  /-- form value `email` -/
  email : Str := []
  /-- form value `loginId` of the body -/
  loginId : Str := []
  /-- form value `args` -/
  att : Option AttReq := none
  asrt : Option AsrtReq := none
  /-- form value `id` -/
  id : Option Nat := none
  /-- times of `vacuum` and of what follows -/
  t0 : Nat := 0
  now : Nat := 0
  /-- random values -/
  chal : Nat := 0
  uid : Nat := 0
  store : Commit := .ok

inductive Resp where
  | error (code : Nat)
  /-- nil is dereferenced -/
  | panic
  /-- the same page again, with a URL token for the page the user wants instead of the nonce -/
  | exchanged (u : Url) (hint : Str)
  | script
  /-- to the other identity provider and back here -/
  | otherLogin (hint : Option Str) (choose : Bool)
  | loginPage (mode email : Str) (u : Url) (allowed registered noFrame : Bool)
  /-- options for `navigator.credentials.get`: the acceptable keys; `fake` is one that nobody has -/
  | assertion (allow : List Nat) (fake : Bool)
  /-- options for `navigator.credentials.create` -/
  | attestation (rp user : Str) (exclude : List Nat)
  /-- the identity has to be refreshed first -/
  | refresh (host email : Str)
  /-- logged in: a cookie with these claims for the host of the page, and the page to go to -/
  | done (u : Url) (claims : Claims)
  /-- cookies of the other provider cleared -/
  | switched (u : Url)
  | ok
  /-- redirect to the same path on this host -/
  | elsewhere (host : Str)
  | askLogin (hint : Option Str)
  | keysPage (email : Str) (keys : List Nat) (current : Nat) (noFrame : Bool)
  deriving DecidableEq, Repr

/-- What is done with a request: an answer, or steps whose outcome (the state before the last one, and after it)
decides about the answer. -/
inductive Plan where
  | reply (f : State → Resp)
  | call (vac : Option Nat) (op : Op) (answer : State → State → Resp)

def Plan.ops : Plan → List Op
  | .reply _ => []
  | .call none op _ => [op]
  | .call (some t) op _ => [.vacuum t, op]

/-- What was added to the log. -/
def newest (s s' : State) : Option Event :=
  if s.log.length < s'.log.length then s'.log.head? else none

/-- manager.go:365-372, 384-391, 408-415, 447-454, 476-483, 570-577, 589-596, 610-617. -/
def guarded (r : Req) (p : Plan) : Plan :=
  if r.method ≠ "POST".toList then .reply fun _ => .error 400
  else if r.csrf ≠ "1".toList then .reply fun _ => .error 400
  else p

/-! ## What the options contain -/

/-- The keys of a user in memory. -/
def userKeys (db : Db) (email : Str) : List Key :=
  match Assoc.get db.subjects email with
  | none => []
  | some h =>
    match Assoc.get db.handles h with
    | none => []
    | some u => u.keys

/-- `subjectIsRegistered`, manager.go:707-716. -/
def isRegistered (db : Db) (email : Str) : Bool := (userKeys db email).length > 0

/-- manager.go:935-952. -/
def allowList (db : Db) (email : Str) : Resp :=
  match Assoc.get db.subjects email with
  | some _ => .assertion ((userKeys db email).map (·.id)) false
  | none => .assertion [] (decide (email ≠ []))

/-- `attestationOptions`, manager.go:788-811, and what follows in 400-401 and 584-585. -/
def attAnswer (x : Site) (c : Claims) (s s' : State) : Resp :=
  match newest s s' with
  | some _ => .attestation x.ep (c.email.getD []) ((userKeys s.db (c.email.getD [])).map (·.id))
  | none => .error 500

/-- The answer after `processAssertion`, manager.go:416-443, with `setAuthToken` 746-776. -/
def checkAnswer (x : Site) (r : Req) (u : Url) (s s' : State) : Resp :=
  match newest s s' with
  | some (.login _ _ c _ _ _ cookie) =>
    if ¬ Passkey.recent x.cfg c r.now then .refresh r.host (c.email.getD [])
    else if cookie then .done u c else .error 500
  | _ => .error 500

/-- The answer after `processAttestation` at the first registration, manager.go:465-472. -/
def addAnswer (u : Url) (s s' : State) : Resp :=
  match newest s s' with
  | some (.added _ _ _ k c _ _ _ _ cookie) => if cookie then .done u { c with passkey := some k.id } else .error 500
  | _ => .error 500

/-- The answer after `processAttestation` on the management page, manager.go:597-606. -/
def manageAnswer (r : Req) (s s' : State) : Resp :=
  match newest s s' with
  | some (.added ..) => if r.store = .ok then .ok else .error 500
  | _ => .error 500

/-! ## `HandleCallback` -/

/-- manager.go:327-360: the login page. -/
def loginPage (x : Site) (r : Req) (u : Url) (email : Option Str) : Plan :=
  if r.get = "RegisterNewID".toList ∨ r.get = "RefreshID".toList then
    match r.cookie with
    | none => .reply fun _ => .panic
    | some c => .reply fun s =>
        .loginPage r.get (c.email.getD []) u (x.allowed (c.email.getD [])) (isRegistered s.db (c.email.getD [])) true
  else .reply fun _ => .loginPage r.get (email.getD []) u false false true

/-- manager.go:362-493: the switch over modes. -/
def callbackModes (x : Site) (r : Req) (u : Url) (email : Option Str) : Plan :=
  if r.get = "Login".toList ∨ r.get = "RegisterNewID".toList ∨ r.get = "RefreshID".toList then loginPage x r u email
  else if r.get = "AssertionOptions".toList then
    guarded r (.call (some r.t0) (.asrtOptions r.now r.chal) fun s _ => allowList s.db r.loginId)
  else if r.get = "AttestationOptions".toList then
    guarded r (match r.cookie with
      | none => .reply fun _ => .panic
      | some c => .call (some r.t0) (.attOptions .first r.now r.now c r.host r.chal r.uid) (attAnswer x c))
  else if r.get = "Check".toList then
    guarded r (match r.asrt with
      | none => .call none (.vacuum r.t0) fun _ _ => .error 500
      | some a => .call (some r.t0) (.assert r.now r.t0 r.cookie a r.store) (checkAnswer x r u))
  else if r.get = "AddKey".toList then
    guarded r (match r.cookie with
      | none => .reply fun _ => .panic
      | some c =>
        if ¬ x.allowed (c.email.getD []) then .reply fun _ => .error 403
        else match r.att with
          | none => .call none (.vacuum r.t0) fun _ _ => .error 500
          | some a => .call (some r.t0) (.attest .first r.now r.t0 c r.host a r.store) (addAnswer u))
  else if r.get = "Switch".toList then guarded r (.reply fun _ => .switched u)
  else .reply fun _ => .error 400

/-- manager.go:306-325: without a login at the other provider. -/
def withoutCookie (x : Site) (r : Req) (u : Url) (email : Option Str) : Plan :=
  if r.cookie = none then
    if r.get = "RefreshID".toList then
      .reply fun _ => .otherLogin (some (if email.getD [] = [] then r.email else email.getD [])) false
    else if r.get = "RegisterNewID".toList then .reply fun _ => .otherLogin none true
    else if r.get = "AttestationOptions".toList ∨ r.get = "AddKey".toList then .reply fun _ => .error 500
    else callbackModes x r u email
  else callbackModes x r u email

/-- `HandleCallback`, manager.go:258-494. -/
def callback (x : Site) (r : Req) : Plan :=
  match r.nonce with
  | some (u, hint) => if ¬ r.tokenOK then .reply fun _ => .error 500 else .reply fun _ => .exchanged u hint
  | none =>
    if r.get = "JS".toList then .reply fun _ => .script
    else if r.redirect = [] then .reply fun _ => .error 400
    else match r.tok with
      | none => .reply fun _ => .error 400
      | some (u, email) => withoutCookie x r u email

/-! ## `ManageKeys` -/

/-- manager.go:567-659: the switch over modes; `pk` is the key of the current login. -/
def manageModes (x : Site) (r : Req) (c : Claims) (pk : Nat) : Plan :=
  if r.get = "AttestationOptions".toList then
    guarded r (.call (some r.t0) (.attOptions .manage r.now r.now c r.host r.chal r.uid) (attAnswer x c))
  else if r.get = "AddKey".toList then
    guarded r (match r.att with
      | none => .call none (.vacuum r.t0) fun _ _ => .error 500
      | some a => .call (some r.t0) (.attest .manage r.now r.t0 c r.host a r.store) (manageAnswer r))
  else if r.get = "DeleteKey".toList then
    guarded r (match r.id with
      | none => .reply fun _ => .error 400
      | some id =>
        if pk = id then .reply fun _ => .error 400
        else .call none (.delete r.now c r.host id r.store) fun _ _ => .ok)
  else if r.get = "JS".toList then .reply fun _ => .script
  else if r.get = [] then
    .reply fun s => .keysPage (c.email.getD []) ((userKeys s.db (c.email.getD [])).map (·.id)) pk true
  else .reply fun _ => .error 400

/-- Whether the login of the request is for this host and not older than ten minutes, manager.go:541-549. -/
def recentHere (x : Site) (r : Req) (c : Claims) : Bool :=
  decide (c.hhash = some (x.hhash r.host)) &&
    match c.iat with
    | none => false
    | some i => decide (r.now ≤ i + 600)

/-- `ManageKeys`, manager.go:512-660. -/
def manage (x : Site) (r : Req) : Plan :=
  if epHost x.ep r.host ≠ r.host then .reply fun _ => .elsewhere (epHost x.ep r.host)
  else
    match r.ctx with
    | none => .reply fun _ => .askLogin none
    | some c =>
      if ¬ recentHere x r c then .reply fun _ => .askLogin (some (c.email.getD []))
      else match c.passkey with
        | none => .reply fun _ => .error 500
        | some pk => manageModes x r c pk

/-! ## Running -/

/-- Which handler a request is for. -/
inductive Handler where
  | callback
  | manage
  deriving DecidableEq, Repr

def plan (x : Site) : Handler → Req → Plan
  | .callback, r => callback x r
  | .manage, r => manage x r

/-- A request by itself, from beginning to end. -/
def serve (x : Site) (s : State) (h : Handler) (r : Req) : State × Resp :=
  match plan x h r with
  | .reply f => (s, f s)
  | .call none op answer => (Passkey.step x.cfg s op, answer s (Passkey.step x.cfg s op))
  | .call (some t) op answer =>
    (Passkey.step x.cfg (Passkey.vacuum t s) op,
      answer (Passkey.vacuum t s) (Passkey.step x.cfg (Passkey.vacuum t s) op))

end Verif.Ceremony
