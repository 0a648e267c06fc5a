/-
Model of proxy/backend.go:83-216: choosing a backend address, connecting, writing the PROXY
header. Concurrent dials share one position per address list.
-/
namespace Verif.Dial

abbrev Bytes := List UInt8

/-- Where to connect: a backend or one of its path overrides (backend.go:84-104). -/
structure Dest where
  addresses : List String
  mode : String
  ppVersion : Nat := 0

/-- The parts of a backend that `dial` reads. -/
structure Backend where
  main : Dest
  overrides : List Dest := []

/-- What one dial is for: `ctxOverrideIDKey` in the context (backend.go:94; a negative or too
large id means the backend itself), and the client connection: its remote and local address,
server name and negotiated protocol (backend.go:193-208). -/
structure Client where
  overrideId : Option Int := none
  remote : String := ""
  local_ : String := ""
  serverName : String := ""
  proto : String := ""
deriving DecidableEq, Repr

/-- backend.go:94: which list (and which position counter) is used; `none` is the backend's
own. -/
def slotOf (b : Backend) (c : Client) : Option Nat :=
  match c.overrideId with
  | some id => if 0 ≤ id ∧ id < b.overrides.length then some id.toNat else none
  | none => none

/-- backend.go:84-104. -/
def destOf (b : Backend) : Option Nat → Dest
  | none => b.main
  | some i => b.overrides[i]?.getD b.main

/-- The header of backend.go:193-208 before serialisation: version, addresses, and the
AUTHORITY (2) and ALPN (1) records. -/
structure Header where
  version : Nat
  src : String
  dst : String
  tlvs : List (Nat × String)
deriving DecidableEq, Repr

/-- backend.go:194-208. -/
def headerFor (v : Nat) (c : Client) : Header where
  version := v
  src := c.remote
  dst := c.local_
  tlvs := (if c.serverName ≠ "" then [(2, c.serverName)] else []) ++
    (if c.proto ≠ "" then [(1, c.proto)] else [])

/-- What the network does to one attempt: the connection is refused, or it is established and
the header write (if there is one) succeeds or fails after `n` bytes. -/
inductive Net where
  | refused
  | connected (headerWrite : Option Nat)
deriving DecidableEq, Repr

/-- A connection opened towards a backend server. -/
structure Out where
  addr : Nat
  written : Bytes := []
  closed : Bool := false
deriving DecidableEq, Repr

inductive Result where
  | noAddresses
  | error
  | ok
  /-- index out of range -/
  | panicked
deriving DecidableEq, Repr

/-- A dial in progress. `max` is the local variable of backend.go:133; `tried` the positions
attempted so far, oldest first; `outs` the connections it established, latest first. -/
structure D where
  client : Client
  slot : Option Nat
  max : Nat := 0
  tried : List Nat := []
  outs : List Out := []
  result : Option Result := none
deriving DecidableEq, Repr

/-- `next` are `be.state.next` and `be.state.oNext` (all zero initially, config.go:921); `log`
records every attempt (which list, which position), oldest first. -/
structure St where
  next : Option Nat → Nat := fun _ => 0
  dials : List D := []
  log : List (Option Nat × Nat) := []

inductive Op where
  /-- `dial` is called -/
  | start (c : Client)
  /-- one turn of the loop of dial number `i`, with what the network does -/
  | attempt (i : Nat) (net : Net)
  /-- client data is forwarded over the connection returned by dial number `i` -/
  | send (i : Nat) (data : Bytes)
deriving DecidableEq, Repr

/-- backend.go:165-172: a failed attempt, with `max` attempts left before it. -/
def failed (next' max : Nat) (x : D) : Nat × D :=
  if max - 1 > 0 then (next', { x with max := max - 1 })
  else (next', { x with max := max - 1, result := some .error })

/-- backend.go:134-190, one turn of the loop. Lines 135-142 (reading and advancing the
position) are one critical section; the rest touches nothing shared, so taking the turn as one
step loses no interleaving of the shared position. `enc` is `Header.WriteTo` of the
go-proxyproto library. -/
def turn (enc : Header → Bytes) (d : Dest) (next : Nat) (x : D) (net : Net) : Nat × D :=
  let sz := d.addresses.length
  let max := if x.max = 0 then sz else x.max
  if next ≥ sz then (next, { x with result := some .panicked })
  else
    let x := { x with tried := x.tried ++ [next] }
    let next' := (next + 1) % sz
    match net with
    | .refused => failed next' max x
    | .connected hw =>
      if d.mode = "QUIC" ∨ d.ppVersion = 0 then
        (next', { x with max := max, outs := { addr := next } :: x.outs, result := some .ok })
      else
        let h := enc (headerFor d.ppVersion x.client)
        match hw with
        | none =>
          (next', { x with max := max, outs := { addr := next, written := h } :: x.outs, result := some .ok })
        | some n =>
          failed next' max { x with outs := { addr := next, written := h.take n, closed := true } :: x.outs }

/-- Forwarding over the connection that was returned: the latest one. -/
def D.send (x : D) (data : Bytes) : D :=
  if x.result = some .ok then
    match x.outs with
    | o :: os => { x with outs := { o with written := o.written ++ data } :: os }
    | [] => x
  else x

def St.step (enc : Header → Bytes) (b : Backend) (s : St) : Op → St
  | .start c =>
    let slot := slotOf b c
    let r := if (destOf b slot).addresses.length = 0 then some Result.noAddresses else none
    { s with dials := s.dials ++ [{ client := c, slot := slot, result := r }] }
  | .attempt i net =>
    match s.dials[i]? with
    | none => s
    | some x =>
      if x.result.isSome then s
      else
        let (n, x') := turn enc (destOf b x.slot) (s.next x.slot) x net
        { next := fun k => if k = x.slot then n else s.next k
          dials := s.dials.set i x'
          log := if x'.result = some .panicked then s.log else s.log ++ [(x.slot, s.next x.slot)] }
  | .send i data =>
    match s.dials[i]? with
    | none => s
    | some x => { s with dials := s.dials.set i (x.send data) }

def St.run (enc : Header → Bytes) (b : Backend) (s : St) (ops : List Op) : St :=
  ops.foldl (St.step enc b) s

end Verif.Dial
