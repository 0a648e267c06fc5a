/-
Model of proxy/internal/counter/counter.go.
-/
namespace Verif.Counter

/-- counter.go:57-66. Times and durations are natural numbers of nanoseconds; `slots` is the
Go slice seen as a function of the index (only indices `< size` are ever used). Counts are
unbounded integers instead of int64. -/
structure Counter where
  size : Nat
  rez : Nat
  steps : Nat := 0
  head : Nat := 0
  time : Nat
  slots : Nat → Int := fun _ => 0

/-- `time.Time.Truncate` (counter.go:52, 104). -/
def truncate (t rez : Nat) : Nat := t - t % rez

/-- counter.go:44-55; `none` is the panic "counter resolution too small" (also taken for a
zero resolution, a Go division by zero). -/
def new (maxPeriod rez now : Nat) : Option Counter :=
  if rez = 0 then none
  else if maxPeriod / rez + 1 > 1000 then none
  else some { size := maxPeriod / rez + 1, rez := rez, time := truncate now rez }

/-- The loop of counter.go:113-117. -/
def shift (v : Int) (size : Nat) : Nat → Nat × (Nat → Int) → Nat × (Nat → Int)
  | 0, s => s
  | n + 1, (head, slots) =>
    let h := (head + 1) % size
    shift v size n (h, fun i => if i = h then v else slots i)

/-- counter.go:103-118. -/
def Counter.advance (c : Counter) (now : Nat) : Counter :=
  let now := truncate now c.rez
  if ¬ now > c.time then c
  else
    let steps := (now - c.time) / c.rez
    let r := shift (c.slots c.head) c.size (min steps c.size) (c.head, c.slots)
    { c with time := now, steps := c.steps + steps, head := r.1, slots := r.2 }

/-- counter.go:68-75. -/
def Counter.value (c : Counter) : Int := c.slots c.head

/-- counter.go:77-86. -/
def Counter.incr (c : Counter) (now : Nat) (delta : Int) : Counter :=
  let c := c.advance now
  { c with slots := fun i => if i = c.head then c.slots c.head + delta else c.slots i }

/-- counter.go:88-101. The result is the exact fraction: counted amount, and the duration in
nanoseconds it is divided by (0 over 0 stands for the early `return 0`). The float64
division is not modelled. -/
def Counter.rate (c : Counter) (now period : Nat) : Counter × Int × Nat :=
  let c := c.advance now
  let steps := min (period / c.rez) (min c.steps c.size)
  if steps = 0 then (c, 0, 0)
  else (c, c.slots c.head - c.slots ((c.head + c.size - steps) % c.size), steps * c.rez)

/-- Calls on a counter, each with the wall clock reading. -/
inductive Op where
  | incr (now : Nat) (delta : Int)
  | rate (now period : Nat)
deriving Repr

def Counter.step (c : Counter) : Op → Counter
  | .incr now d => c.incr now d
  | .rate now p => (c.rate now p).1

def Counter.run (c : Counter) (ops : List Op) : Counter := ops.foldl Counter.step c

end Verif.Counter
