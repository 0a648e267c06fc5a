/-
Model of `pathClean` (proxy/backend-http.go:108-120), `pathMatches` (proxy/backend-sso.go:347-358)
and of the standard library functions they use. Paths are lists of characters.
-/
namespace Verif.Path

abbrev Str := List Char

/-- The backing up of path.Clean (Go path/path.go:105-111): drop characters from the end until a
'/' was dropped or only the root is left. The output buffer is kept reversed. -/
def backup : Str → Str
  | [] => []
  | x :: rest => if rest.length ≤ 1 then rest else if x = '/' then rest else backup rest

/-- The loop of Go's path.Clean (path/path.go:90-129) for a rooted path. `out` is the reversed
output buffer, which always ends with the root '/'. `inElem` says that the copying loop of a
path element is running. The unrooted branches are left out: `pathClean` only passes rooted
paths. -/
def cleanLoop : Str → Str → Bool → Str
  | [], out, _ => out
  | '/' :: t, out, _ => cleanLoop t out false
  | c :: t, out, true => cleanLoop t (c :: out) true
  | ['.'], out, false => out
  | '.' :: '/' :: t, out, false => cleanLoop t out false
  | ['.', '.'], out, false => if out.length > 1 then backup out else out
  | '.' :: '.' :: '/' :: t, out, false =>
    cleanLoop t (if out.length > 1 then backup out else out) false
  | c :: t, out, false => cleanLoop t (c :: (if out.length ≠ 1 then '/' :: out else out)) true

/-- path.Clean of a path that starts with '/'; the argument is what follows. -/
def goClean (rest : Str) : Str := (cleanLoop rest ['/'] false).reverse

/-- backend-http.go:108-120. The test for "." is never true for a rooted path and is left
out. -/
def pathClean (p : Str) : Str :=
  let rest := match p with
    | '/' :: t => t
    | p => p
  let pp := goClean rest
  if pp ≠ ['/'] ∧ ('/' :: rest).getLast? = some '/' then pp ++ ['/'] else pp

/-- backend-sso.go:347-358. -/
def pathMatches (prefixes : List Str) (path : Str) : Bool :=
  if prefixes = [] then true
  else prefixes.any fun p => p.isPrefixOf path || p.isPrefixOf (pathClean path)

/-- `strings.Split(s, "/")`: always at least one element. -/
def splitSlash : Str → List Str
  | [] => [[]]
  | c :: t =>
    if c = '/' then [] :: splitSlash t
    else match splitSlash t with
      | [] => [[c]]
      | s :: ss => (c :: s) :: ss

end Verif.Path
