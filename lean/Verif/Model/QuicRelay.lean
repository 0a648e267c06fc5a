import Verif.Model.Relay
/-
Model of how a QUIC connection is relayed to a QUIC server: `handleQUICConnection` in mode QUIC
(proxy/quic.go:217-319) and `handleQUICQUICStream` (proxy/quic.go:411-464). What is relayed on one stream is
`Verif.Model.Relay`; here a direction of a stream is only still copying or not.

Simplifications: all the goroutines are steps of one machine. The time for half-closed streams passes as a step that may be
taken as soon as the clock runs. Limits on the number of streams are left out: `OpenStreamSync` returns at once.
The two datagram loops are there, the datagrams are not.
-/
namespace Verif.QuicRelay

inductive Who where
  | client
  | server
deriving DecidableEq, Repr

def Who.other : Who → Who
  | .client => .server
  | .server => .client

inductive Phase where
  /-- in `OpenStreamSync` or `OpenUniStreamSync` -/
  | opening
  /-- `handleQUICQUICStream` has returned because no stream could be opened -/
  | failed
  | relaying
  | over
deriving DecidableEq, Repr

structure Strm where
  opener : Who
  uni : Bool
  phase : Phase := .opening
  /-- the direction that reads from this peer is copying -/
  copying : Who → Bool := fun _ => true
  /-- this peer has ended its stream, in order or not -/
  ended : Who → Option Bool
  /-- this peer has sent something after the other one had gone -/
  unread : Who → Bool := fun _ => false
  /-- the direction that reads from this peer has ended in order, and the clock for the other one runs -/
  orderly : Who → Bool := fun _ => false
  /-- `CancelRead` was called on the stream of the opener because nothing could be opened (quic.go:426, 438) -/
  stopped : Bool := false
  /-- the proxy has ended its own side of the stream of the opener -/
  told : Bool := false

/-- Accepting streams, accepting one-way streams, receiving datagrams. -/
inductive Loop where
  | bidi
  | uni
  | datagram
deriving DecidableEq, Repr

/-- Which loop accepts a stream. -/
def loopOf (uni : Bool) : Loop := if uni then .uni else .bidi

structure St where
  /-- the connection has ended -/
  gone : Who → Bool := fun _ => false
  /-- with an application error -/
  appErr : Who → Bool := fun _ => false
  running : Loop → Who → Bool
  streams : List Strm := []
  /-- `wg.Wait` and the handler have returned (quic.go:317-318) -/
  returned : Bool := false
  /-- the proxy has closed the connection -/
  closed : Who → Bool := fun _ => false

/-- The state after `dialQUICBackend`; `dgram` says that both connections support datagrams (quic.go:287). -/
def init (dgram : Bool) : St where
  running l _ :=
    match l with
    | .datagram => dgram
    | _ => true

/-- The wait group does not count one-way streams of the server (quic.go:236; 248, 264, 280 otherwise). -/
def Strm.tracked (x : Strm) : Bool := !(x.uni && x.opener == .server)

/-- A new stream; on a one-way stream the destination sends nothing (`SendOnlyStream.Read`, netw/quic.go:461-463). -/
def Strm.new (w : Who) (uni : Bool) : Strm where
  opener := w
  uni := uni
  ended w' := if uni ∧ w' = w.other then some true else none

/-- `be.bridgeConns(conn, intConn)` (quic.go:453): the opener of the stream takes the place of the client, so that the
setting for the client is used for the direction that reads from the opener (backend.go:289). -/
def closeWhenDone (c : Relay.Cfg) (opener src : Who) : Bool :=
  c.closeWhenDone (if src = opener then .up else .down)

/-- Whether the copying from `w` can come to an end. -/
def Strm.canEnd (gone : Who → Bool) (x : Strm) (w : Who) : Bool :=
  gone w || (x.ended w).isSome || x.unread w || x.orderly w.other

def put (f : Who → α) (w : Who) (a : α) : Who → α := fun w' => if w' = w then a else f w'

/-- The end of `forward` for the direction that reads from `w` (backend.go:299-322), and of
`handleQUICQUICStream` after the second one. -/
def Strm.endDir (c : Relay.Cfg) (gone : Who → Bool) (x : Strm) (w : Who) : Strm :=
  if x.phase = .relaying ∧ x.copying w ∧ x.canEnd gone w then
    let inOrder := x.ended w == some true && !gone w && !gone w.other
    let half := inOrder && !closeWhenDone c x.opener w
    { x with
      copying := put x.copying w false
      orderly := if half then put x.orderly w true else x.orderly
      told := x.told || !half || w != x.opener
      phase := if x.copying w.other then .relaying else .over }
  else x

/-- quic.go:418-444. -/
def Strm.tryOpen (gone appErr : Who → Bool) (x : Strm) : Strm :=
  if x.phase = .opening then
    if gone x.opener.other ∨ gone .client then { x with phase := .failed, stopped := gone x.opener.other && appErr x.opener.other }
    else { x with phase := .relaying }
  else x

def upd : List α → Nat → (α → α) → List α
  | [], _, _ => []
  | a :: l, 0, f => f a :: l
  | a :: l, k + 1, f => a :: upd l k f

inductive Op where
  /-- what happens outside -/
  | goes (w : Who) (app : Bool)
  | opens (w : Who) (uni : Bool)
  | ends (k : Nat) (w : Who) (inOrder : Bool)
  | sends (k : Nat) (w : Who)
  /-- what the proxy does -/
  | loopEnds (l : Loop) (w : Who)
  | tryOpen (k : Nat)
  | endDir (k : Nat) (w : Who)
  | finish
deriving DecidableEq, Repr

def Op.internal : Op → Bool
  | .loopEnds .. | .tryOpen _ | .endDir .. | .finish => true
  | _ => false

/-- `wg.Wait` can return. -/
def St.idle (s : St) : Bool :=
  ([Loop.bidi, .uni, .datagram].all fun l => !s.running l .client && !s.running l .server) &&
    s.streams.all fun x => !x.tracked || x.phase == .over || x.phase == .failed

def St.step (c : Relay.Cfg) (s : St) : Op → St
  | .goes w app =>
    if s.gone w then s else { s with gone := put s.gone w true, appErr := put s.appErr w app }
  | .opens w uni =>
    if s.running (loopOf uni) w ∧ s.gone w = false ∧ s.gone .client = false then
      { s with streams := s.streams ++ [.new w uni] }
    else s
  | .ends k w o =>
    { s with streams := upd s.streams k fun x =>
        if (x.ended w).isNone ∧ s.gone w = false then { x with ended := put x.ended w (some o) } else x }
  | .sends k w =>
    { s with streams := upd s.streams k fun x =>
        if (x.ended w).isNone ∧ s.gone w = false ∧ s.gone w.other then { x with unread := put x.unread w true } else x }
  | .loopEnds l w =>
    -- the context is that of the client's connection (quic.go:125)
    if s.gone w ∨ s.gone .client then
      { s with running := fun l' w' => if l' = l ∧ w' = w then false else s.running l' w' }
    else s
  | .tryOpen k => { s with streams := upd s.streams k (·.tryOpen s.gone s.appErr) }
  | .endDir k w => { s with streams := upd s.streams k (·.endDir c s.gone w) }
  | .finish =>
    -- quic.go:224, 127
    if s.idle then { s with returned := true, closed := fun _ => true, gone := fun _ => true } else s

def St.run (c : Relay.Cfg) (s : St) (ops : List Op) : St := ops.foldl (St.step c) s

end Verif.QuicRelay
