/-!
# Association lists

The semantics of a Go map, used by several models: `get` is `m[k]`, `put` is `m[k] = v`, `del` is
`delete(m, k)`.
-/

namespace Verif.Assoc

variable {κ α : Type} [DecidableEq κ]

def get : List (κ × α) → κ → Option α
  | [], _ => none
  | (k', v) :: t, k => if k' = k then some v else get t k

def del (t : List (κ × α)) (k : κ) : List (κ × α) := t.filter fun p => p.1 ≠ k

def put (t : List (κ × α)) (k : κ) (v : α) : List (κ × α) := (k, v) :: del t k

/-- Decoding the map `a` over the map `t`: the entries of `a` replace those of `t`. -/
def overlay (a t : List (κ × α)) : List (κ × α) := a ++ t

end Verif.Assoc
