/-
Model of proxy/backend.go:271-348: relaying bytes between a client and a backend server.
-/
namespace Verif.Bridge

abbrev Bytes := List UInt8

/-- One of the two connections, seen from the proxy. `sent` is everything the remote peer has
sent so far, `taken` how much of it the proxy has read; `eof` says the peer has finished
sending; `written` is everything the proxy wrote to the peer. `broken` stands for a reset,
`expired` for a passed read deadline. -/
structure Side where
  sent : Bytes := []
  taken : Nat := 0
  eof : Bool := false
  written : Bytes := []
  closed : Bool := false
  wclosed : Bool := false
  deadline : Bool := false
  expired : Bool := false
  broken : Bool := false
deriving DecidableEq, Repr

/-- One call of `forward`: copying, with the bytes read and not yet written, or returned. -/
inductive Dir where
  | copying (buf : Bytes)
  | returned (err : Bool)
deriving DecidableEq, Repr

/-- The side `forward` reads from. `up` is client to server (backend.go:289), `down` is server
to client (backend.go:286). -/
inductive Which where
  | up
  | down
deriving DecidableEq, Repr

structure St where
  client : Side := {}
  server : Side := {}
  up : Dir := .copying []
  down : Dir := .copying []
deriving DecidableEq, Repr

/-- backend.go:272-279: the two flags with their defaults. -/
structure Cfg where
  serverCloseEnds : Option Bool := none
  clientCloseEnds : Option Bool := none
deriving DecidableEq, Repr

def Cfg.closeWhenDone (c : Cfg) : Which → Bool
  | .up => c.clientCloseEnds.getD false
  | .down => c.serverCloseEnds.getD true

def St.inn (s : St) : Which → Side
  | .up => s.client
  | .down => s.server

def St.out (s : St) : Which → Side
  | .up => s.server
  | .down => s.client

def St.dir (s : St) : Which → Dir
  | .up => s.up
  | .down => s.down

def St.set (s : St) (w : Which) (inn out : Side) (d : Dir) : St :=
  match w with
  | .up => { s with client := inn, server := out, up := d }
  | .down => { s with server := inn, client := out, down := d }

/-- The end of `forward` (backend.go:298-322) after `io.Copy` returned with or without error.
`halfOK` says that both `closeWrite` and `closeRead` succeed; they may fail on connections that
cannot be half closed, or are closed already. The few calls are taken as one step. -/
def St.finish (s : St) (closeWhenDone : Bool) (w : Which) (inn out : Side) (err halfOK : Bool) : St :=
  if err ∨ closeWhenDone then
    s.set w { inn with closed := true } { out with closed := true } (.returned err)
  else if halfOK ∧ out.closed = false then
    s.set w inn { out with wclosed := true, deadline := true } (.returned false)
  else s.set w { inn with closed := true } { out with closed := true } (.returned false)

inductive Op where
  /-- what the peers do: `true` is the client -/
  | peerSend (client : Bool) (b : Bytes)
  | peerEOF (client : Bool)
  | peerReset (client : Bool)
  /-- the read deadline, if one is set, passes -/
  | expire (client : Bool)
  /-- `io.Copy` reads up to `n + 1` bytes -/
  | read (w : Which) (n : Nat) (halfOK : Bool)
  /-- `io.Copy` writes its buffer; on a broken connection `k` bytes may still get through -/
  | write (w : Which) (k : Nat)
deriving DecidableEq, Repr

def onSide (s : St) (client : Bool) (f : Side → Side) : St :=
  if client then { s with client := f s.client } else { s with server := f s.server }

def St.step (c : Cfg) (s : St) : Op → St
  | .peerSend cl b => onSide s cl fun x => if x.eof then x else { x with sent := x.sent ++ b }
  | .peerEOF cl => onSide s cl fun x => { x with eof := true }
  | .peerReset cl => onSide s cl fun x => { x with broken := true }
  | .expire cl => onSide s cl fun x => if x.deadline then { x with expired := true } else x
  | .read w n halfOK =>
    match s.dir w with
    | .copying [] =>
      let inn := s.inn w
      let out := s.out w
      let cwd := c.closeWhenDone w
      if inn.closed ∨ inn.broken ∨ inn.expired then s.finish cwd w inn out true halfOK
      else if inn.taken < inn.sent.length then
        let chunk := (inn.sent.drop inn.taken).take (n + 1)
        s.set w { inn with taken := inn.taken + chunk.length } out (.copying chunk)
      else if inn.eof then s.finish cwd w inn out false halfOK
      else s
    | _ => s
  | .write w k =>
    match s.dir w with
    | .copying (b :: bs) =>
      let inn := s.inn w
      let out := s.out w
      let cwd := c.closeWhenDone w
      if out.closed ∨ out.wclosed then s.finish cwd w inn out true true
      else if out.broken then
        s.finish cwd w inn { out with written := out.written ++ (b :: bs).take k } true true
      else s.set w inn { out with written := out.written ++ (b :: bs) } (.copying [])
    | _ => s

def St.run (c : Cfg) (s : St) (ops : List Op) : St := ops.foldl (St.step c) s

end Verif.Bridge
