/-!
# Token signing keys

Model of `proxy/internal/tokenmanager/tokenmanager.go`: the key set, its rotation, the choice of
a signing key and the lookup of a verification key.

Simplifications:
* times are natural numbers of seconds (`time.Time` has nanoseconds; only `Before`, with the
  fixed offsets of 2 hours, 24 hours and 7 days, is used on them);
* the key material is abstract: a key has an identifier, a kind and a creation time;
* the storage package is a cell `stored`; opening it and committing to it may fail;
* `x509.ParsePKCS8PrivateKey` / `tpm.UnmarshalKey` is a predicate `loads` on keys.
-/

namespace Verif.Keys

/-- Kind of private key; each of the three signing methods uses exactly one kind
(tokenmanager.go:348-363). -/
inductive Kind where
  | ecdsa
  | rsa
  | ed25519
  deriving DecidableEq, Repr

/-- `tokenKey`, tokenmanager.go:69-75. -/
structure Key where
  id : Nat
  kind : Kind
  created : Nat
  deriving DecidableEq, Repr

abbrev hour : Nat := 3600
abbrev day : Nat := 24 * hour

/-- What is on disk (`tokenKeyFile`) and `tm.keys`, tokenmanager.go:90-97. -/
structure State where
  stored : List Key
  mem : List Key
  deriving DecidableEq, Repr

/-- What the outside world decides during one call of `rotateKeys`: the time, the group of keys
`createNewTokenKeys` makes when the file is empty (`first`) and the one it makes when the newest
key is a day old (`next`) - `none` when key creation fails - which stored keys can be loaded,
and whether opening and committing the file works. -/
structure Env where
  now : Nat
  first : Option (List Key)
  next : Option (List Key)
  loads : Key → Bool
  openOk : Bool
  commitOk : Bool

/-- The keys the file would hold after the first two steps of `rotateKeys`,
tokenmanager.go:139-158; `none` when a key cannot be created. The Boolean is `changed`. -/
def grow (e : Env) (keys : List Key) : Option (List Key × Bool) :=
  let start : Option (List Key × Bool) :=
    if keys.isEmpty then e.first.map fun g => (keys ++ g, true) else some (keys, false)
  match start with
  | none => none
  | some (ks, changed) =>
    match ks.getLast? with
    | none => none -- index out of range: not reachable, a created group is not empty
    | some newest =>
      if newest.created + day < e.now then
        e.next.map fun g => (ks ++ g, true)
      else some (ks, changed)

/-- Dropping the oldest key after seven days, tokenmanager.go:159-162. -/
def expire (now : Nat) (p : List Key × Bool) : List Key × Bool :=
  match p.1 with
  | [] => p
  | k :: ks => if k.created + 7 * day < now then (ks, true) else p

/-- `rotateKeys`, tokenmanager.go:130-191. -/
def rotate (e : Env) (s : State) : State :=
  if !e.openOk then s else
  match grow e s.stored with
  | none => s
  | some p =>
    let (ks, changed) := expire e.now p
    if !changed && !s.mem.isEmpty then s
    else
      let ks := ks.filter e.loads
      { stored := if e.commitOk then ks else s.stored, mem := ks }

/-- `rotateKeys` reports an error, tokenmanager.go:132-135, 141-144, 152-155, 190. -/
def rotateFails (e : Env) (s : State) : Bool :=
  !e.openOk || (grow e s.stored).isNone ||
    (match grow e s.stored with
     | none => true
     | some p => ((expire e.now p).2 || s.mem.isEmpty) && !e.commitOk)

/-- `New`, tokenmanager.go:100-114: the process starts with nothing in memory; `none` means the
process does not start. -/
def start (e : Env) (stored : List Key) : Option State :=
  let s : State := { stored, mem := [] }
  if rotateFails e s then none else some (rotate e s)

/-- Choice of the signing key, tokenmanager.go:346-368. `none` stands for the nil pointer that
line 370 would dereference. -/
def select (kind : Kind) (now : Nat) (keys : List Key) : Option Key :=
  (keys.filter (·.kind = kind)).foldl
    (fun tk k => if tk.isNone || k.created + 2 * hour < now then some k else tk) none

/-- The signature algorithms `CreateToken` is called with, and the default of
tokenmanager.go:334-340. -/
inductive Alg where
  | default
  | es256
  | rs256
  | eddsa
  deriving DecidableEq, Repr

def Alg.kind (tpm : Bool) : Alg → Kind
  | .default => if tpm then .ecdsa else .ed25519
  | .es256 => .ecdsa
  | .rs256 => .rsa
  | .eddsa => .ed25519

/-- Result of the signing-key part of `CreateToken`, tokenmanager.go:331-372. -/
inductive Sign where
  | signed (k : Key)
  | panic
  deriving DecidableEq, Repr

def createToken (tpm : Bool) (alg : Alg) (now : Nat) (s : State) : Sign :=
  match select (alg.kind tpm) now s.mem with
  | some k => .signed k
  | none => .panic

/-- `getKey`, tokenmanager.go:417-426: the first key with the identifier in the token's header. -/
def getKey (kid : Nat) (s : State) : Option Key :=
  s.mem.find? (·.id = kid)

/-- Kinds made by `createNewTokenKeys`, tokenmanager.go:193-218. -/
def groupKinds (tpm : Bool) : List Kind :=
  if tpm then [.ecdsa, .rsa] else [.ecdsa, .rsa, .ed25519]

end Verif.Keys
