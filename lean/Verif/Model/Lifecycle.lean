/-
Model of the life of a backend (proxy/backend.go:44-81, proxy.go:1175-1183, 1289-1317,
1408-1430) and of graceful shutdown (proxy.go:995-1030).
-/
namespace Verif.Lifecycle

/-! ## One backend and its connections -/

/-- The mutable part of a backend: `server` is `be.httpServer != nil`, `h3` is
`be.http3Server != nil`, `chanCloses` counts `close(be.httpConnChan)`. Raw backends start with
`server = false` (proxy.go:705-733). -/
structure Life where
  inFlight : Int := 0
  shutdown : Bool := false
  server : Bool := true
  h3 : Bool := false
  chanCloses : Nat := 0
deriving DecidableEq, Repr

/-- backend.go:44-53. -/
def Life.incInFlight (l : Life) (delta : Int) : Life :=
  let l := { l with inFlight := l.inFlight + delta }
  if l.inFlight = 0 ∧ l.shutdown ∧ l.server then
    { l with chanCloses := l.chanCloses + 1, server := false }
  else l

/-- backend.go:55-81; `hard` is a nil context. Stopping the `http.Server` itself is not
modelled. -/
def Life.close (l : Life) (hard : Bool) : Life :=
  if l.server = false then l
  else if hard then { l with chanCloses := l.chanCloses + 1, server := false, h3 := false }
  else
    let l := { l with shutdown := true }
    if l.inFlight = 0 then { l with chanCloses := l.chanCloses + 1, server := false, h3 := false }
    else l

/-- Where the handler of a connection stands. -/
inductive Phase where
  | new
  /-- refused by `p.backend` -/
  | refused
  /-- `p.backend` returned the backend (proxy.go:1175), not yet counted -/
  | looked
  /-- counted in flight (proxy.go:1183) -/
  | registered
  /-- sent to the HTTP server over the channel (proxy.go:1316) -/
  | handed
  /-- sending on the closed channel panicked; recovered, about to be closed -/
  | crashed
  /-- closed, no longer counted -/
  | ended
deriving DecidableEq, Repr

structure St where
  life : Life := {}
  conns : List Phase := []
deriving DecidableEq, Repr

inductive Op where
  | arrive
  | lookup (i : Nat)
  | register (i : Nat)
  | send (i : Nat)
  | finish (i : Nat)
  | graceful
  | hard
deriving DecidableEq, Repr

/-- Atomic steps: `lookup` is proxy.go:1424-1429 under the backend's lock, `register` and
`finish` are `incInFlight(1)` (proxy.go:1183) and `incInFlight(-1)` (proxy.go:1144), `send` is
proxy.go:1316, `graceful` and `hard` are `close(ctx)` and `close(nil)`. -/
def St.step (s : St) : Op → St
  | .arrive => { s with conns := s.conns ++ [.new] }
  | .lookup i =>
    if s.conns[i]? = some .new then
      { s with conns := s.conns.set i (if s.life.shutdown then .refused else .looked) }
    else s
  | .register i =>
    if s.conns[i]? = some .looked then
      { life := s.life.incInFlight 1, conns := s.conns.set i .registered }
    else s
  | .send i =>
    if s.conns[i]? = some .registered then
      { s with conns := s.conns.set i (if s.life.chanCloses = 0 then .handed else .crashed) }
    else s
  | .finish i =>
    if s.conns[i]? = some .registered ∨ s.conns[i]? = some .handed ∨ s.conns[i]? = some .crashed then
      { life := s.life.incInFlight (-1), conns := s.conns.set i .ended }
    else s
  | .graceful => { s with life := s.life.close false }
  | .hard => { s with life := s.life.close true }

def St.run (s : St) (ops : List Op) : St := ops.foldl St.step s

/-! ## Graceful shutdown -/

/-- A tracked connection: whether its mode is one that shutdown waits for (not TCP, TLS or
passthrough; a connection whose mode is not known yet counts, proxy.go:1012), and how far its
closing went. -/
inductive CS where
  | opened
  /-- removed from the tracker, broadcast outstanding (proxy.go:1142-1152) -/
  | removed
  | gone
deriving DecidableEq, Repr

structure TC where
  counts : Bool
  state : CS := .opened
deriving DecidableEq, Repr

/-- The waiting goroutine (proxy.go:1018-1023). -/
inductive Waiter where
  /-- holds the lock, about to evaluate `connLeft()` -/
  | checking
  /-- `connLeft()` was true, `Wait` has not yet put it on the notification list -/
  | parking
  | waiting
  | done
deriving DecidableEq, Repr

structure Shut where
  conns : List TC := []
  waiter : Waiter := .checking
  deadline : Bool := false
  stopped : Bool := false
deriving DecidableEq, Repr

inductive SOp where
  /-- a connection accepted before the listener was closed is tracked -/
  | arrive (counts : Bool)
  /-- the mode of a connection becomes known to be a raw one (proxy.go:1188-1215) -/
  | raw (i : Nat)
  | remove (i : Nat)
  | broadcast (i : Nat)
  | check
  | park
  | deadline
  | stop
deriving DecidableEq, Repr

def Shut.left (s : Shut) : Bool := s.conns.any fun c => c.counts && c.state == .opened

/-- `sync.Cond`: `Broadcast` wakes only a goroutine already on the notification list, and does
not need the lock. -/
def Shut.step (s : Shut) : SOp → Shut
  | .arrive c => { s with conns := s.conns ++ [{ counts := c }] }
  | .raw i => match s.conns[i]? with
    | some c => { s with conns := s.conns.set i { c with counts := false } }
    | none => s
  | .remove i => match s.conns[i]? with
    | some c => if c.state = .opened then { s with conns := s.conns.set i { c with state := .removed } } else s
    | none => s
  | .broadcast i => match s.conns[i]? with
    | some c =>
      if c.state = .removed then
        { s with conns := s.conns.set i { c with state := .gone }
                 waiter := if s.waiter = .waiting then .checking else s.waiter }
      else s
    | none => s
  | .check => if s.waiter = .checking then { s with waiter := if s.left then .parking else .done } else s
  | .park => if s.waiter = .parking then { s with waiter := .waiting } else s
  | .deadline => { s with deadline := true }
  | .stop => if s.waiter = .done ∨ s.deadline then { s with stopped := true } else s

def Shut.run (s : Shut) (ops : List SOp) : Shut := ops.foldl Shut.step s

end Verif.Lifecycle
