/-!
# What the page with metrics counts

Model of `Proxy.setCounters` (proxy/metrics.go:72-98) with its two critical sections, of the counters of connections
(proxy/internal/netw/netw.go:148-173, 195-230; quic.go:202-227, 560-587), of the rows for server names (metrics.go:235-264)
and of `formatSize10` (proxy/util.go:154-165).

A counter is its total: the total of `Counter` is what was added to it (`Verif/Model/Counter.lean`). Rates are numbers in the
text only. Each critical section is one step; any number of connections is in between. Floating-point numbers are fractions,
and `%.1f` is a parameter: rounding to the nearest tenth. The conversion of names to Unicode is a parameter.
-/
namespace Verif.Tally

abbrev Str := List Char

/-- `backendMetrics`, proxy.go:151-155. -/
structure Entry where
  conns : Nat := 0
  sent : Nat := 0
  recv : Nat := 0
  deriving DecidableEq, Repr

/-- How far a connection is. -/
inductive Phase
  /-- not in `setCounters` yet, or before its first section -/
  | new
  /-- between the two sections: there was no entry -/
  | missed
  /-- with the counters of an entry, which is a pointer -/
  | set (i : Nat)
  /-- closed before `setCounters`: proxy.go:1154-1159, 1163-1167, 1176-1181 -/
  | refused
  deriving DecidableEq, Repr

structure Conn where
  name : Str
  phase : Phase := .new
  /-- its own counters -/
  sent : Nat := 0
  recv : Nat := 0
  deriving DecidableEq, Repr

structure St where
  /-- the entries that were allocated; pointers are positions -/
  heap : List Entry := []
  /-- `p.metrics` -/
  map : List (Str × Nat) := []
  conns : List Conn := []
  deriving DecidableEq, Repr

def find (m : List (Str × Nat)) (n : Str) : Option Nat := (m.find? (·.1 = n)).map (·.2)

/-- `m.numConnections.Incr(1); c.SetCounters(m.numBytesSent, m.numBytesReceived)` -/
def St.use (s : St) (c : Nat) (k : Conn) (i : Nat) : St :=
  { s with heap := s.heap.modify i fun e => { e with conns := e.conns + 1 }
           conns := s.conns.set c { k with phase := .set i } }

/-- metrics.go:73-82, with the lock for reading. -/
def St.look (s : St) (c : Nat) (k : Conn) : St :=
  match find s.map k.name with
  | some i => s.use c k i
  | none => { s with conns := s.conns.set c { k with phase := .missed } }

/-- metrics.go:84-98, with the lock for writing. -/
def St.make (s : St) (c : Nat) (k : Conn) : St :=
  match find s.map k.name with
  | some i => s.use c k i
  | none =>
    ({ s with heap := s.heap ++ [{}], map := s.map ++ [(k.name, s.heap.length)] } : St).use c k s.heap.length

inductive Ev
  | arrive (name : Str)
  | refuse (c : Nat)
  /-- the next section of `setCounters` -/
  | enter (c : Nat)
  | sent (c n : Nat)
  | received (c n : Nat)
  deriving DecidableEq, Repr

/-- netw.go:227-228 and quic.go:585-586; a nil counter does nothing. -/
def St.count (s : St) (c : Nat) (k : Conn) (snd rcv : Nat) : St :=
  match k.phase with
  | .set i =>
    { s with heap := s.heap.modify i fun e => { e with sent := e.sent + snd, recv := e.recv + rcv }
             conns := s.conns.set c { k with sent := k.sent + snd, recv := k.recv + rcv } }
  | .refused => { s with conns := s.conns.set c { k with sent := k.sent + snd, recv := k.recv + rcv } }
  -- the handler is in `setCounters` or before it: nothing is written, and nothing but the peeked hello is read, which
  -- counts when it is read again, netw.go:207-216
  | _ => s

def St.step (s : St) : Ev → St
  | .arrive n => { s with conns := s.conns ++ [{ name := n }] }
  | .refuse c =>
    match s.conns[c]? with
    | some k => if k.phase = .new then { s with conns := s.conns.set c { k with phase := .refused } } else s
    | none => s
  | .enter c =>
    match s.conns[c]? with
    | some k =>
      match k.phase with
      | .new => s.look c k
      | .missed => s.make c k
      | _ => s
    | none => s
  | .sent c n =>
    match s.conns[c]? with
    | some k => s.count c k n 0
    | none => s
  | .received c n =>
    match s.conns[c]? with
    | some k => s.count c k 0 n
    | none => s

def run (evs : List Ev) : St := evs.foldl St.step {}

/-- `totals[k] = &m`, metrics.go:243 -/
def put (t : List (Str × Entry)) (k : Str) (e : Entry) : List (Str × Entry) := t.filter (·.1 ≠ k) ++ [(k, e)]

/-- metrics.go:238-244; the order of the rows is left out. -/
def St.page (uni : Str → Str) (s : St) : List (Str × Entry) :=
  s.map.foldl (fun t p => put t (uni p.1) (s.heap.getD p.2 {})) []

/-! ## Sizes -/

def digit (n : Nat) : Char := Char.ofNat (48 + n)

/-- `%d` -/
def dec (n : Nat) : Str := if n < 10 then [digit n] else dec (n / 10) ++ [digit (n % 10)]

/-- `%.1f` of a number of tenths. -/
def tenths (r : Nat) : Str := dec (r / 10) ++ ['.', digit (r % 10)]

/-- `formatSize10` of `a / d`, util.go:154-165; for `int64`, `d` is 1. `round p q` is `p / q` rounded to an integer. -/
def formatSize (round : Nat → Nat → Nat) (a d : Nat) : Str :=
  if a > 1000000000 * d then tenths (round (10 * a) (1000000000 * d)) ++ " GB".toList
  else if a > 1000000 * d then tenths (round (10 * a) (1000000 * d)) ++ " MB".toList
  else if a > 1000 * d then tenths (round (10 * a) (1000 * d)) ++ " KB".toList
  else dec (a / d) ++ [' ', '\u00a0', 'B']

end Verif.Tally
