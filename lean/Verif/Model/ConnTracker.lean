/-
Model of proxy/conntracker.go and of the MaxOpen check (proxy.go:1139-1160, and the same
code for QUIC in quic.go).
-/
namespace Verif.ConnTracker

/-- A tracked inbound connection: its key, the count `add` returned for it, and whether the
handler let it past the limit check. Key equality of the Go map is equality of the address
pointers of the accepted connection, so every live connection has its own key. -/
structure Entry where
  key : Nat
  numOpen : Nat
  admitted : Bool
deriving DecidableEq, Repr

/-- `conns` of conntracker.go:40-43, most recently added first, and the current value of
`p.cfg.MaxOpen` (a Go int, possibly negative: config.go:792-798). -/
structure Tracker where
  maxOpen : Int
  conns : List Entry := []
deriving DecidableEq, Repr

/-- Atomic steps of concurrent connection handlers, TCP and QUIC alike:
* `arrive k`: `p.inConns.add(conn)` (proxy.go:1140, quic.go:129);
* `check k`: the comparison with `MaxOpen` (proxy.go:1154, quic.go:169);
* `close k`: the close callback removing it (proxy.go:1142, quic.go:131). A refused
  connection is closed by its handler, which is another `close` step that may come
  arbitrarily late;
* `reconfigure n`: a new configuration is installed (proxy.go:860). -/
inductive Op where
  | arrive (k : Nat)
  | check (k : Nat)
  | close (k : Nat)
  | reconfigure (n : Int)
deriving DecidableEq, Repr

/-- conntracker.go:55-64 (`add`; a key already present replaces the old entry), 66-72
(`remove`) and the check of proxy.go:1154 `if numOpen >= p.cfg.MaxOpen`. -/
def Tracker.step (t : Tracker) : Op → Tracker
  | .arrive k =>
    let rest := t.conns.filter (·.key ≠ k)
    { t with conns := ⟨k, rest.length + 1, false⟩ :: rest }
  | .check k =>
    { t with conns := t.conns.map fun e =>
        if e.key = k ∧ ¬ (e.numOpen : Int) ≥ t.maxOpen then { e with admitted := true } else e }
  | .close k => { t with conns := t.conns.filter (·.key ≠ k) }
  | .reconfigure n => { t with maxOpen := n }

def Tracker.run (t : Tracker) (ops : List Op) : Tracker := ops.foldl Tracker.step t

end Verif.ConnTracker
