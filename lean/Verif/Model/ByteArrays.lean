/-!
# Byte strings between the server and the browser

Model of how passkeys' byte strings travel: `Bytes.MarshalJSON` (proxy/internal/passkeys/webauthn.go:53-60), which is also
how they are stored (manager.go:76-91), the scripts of the pages (webauthn.js:43-61, 115-133), and `json.Unmarshal` into
`Bytes` (manager.go:834-841, 959-969).

`fmt.Sprintf("%d")`, `strings.Fields` and encoding/json are written down as far as they concern lists of small numbers.
`JSON.stringify` writes numbers like Go does, without spaces. A byte is a number below 256.
-/
namespace Verif.ByteArrays

abbrev Str := List Char
abbrev Bytes := List Nat

def digit (n : Nat) : Char := Char.ofNat (48 + n)

/-- A number in decimal. -/
def dec (n : Nat) : Str := if n < 10 then [digit n] else dec (n / 10) ++ [digit (n % 10)]

/-- `strings.Join` with a separator of one character. -/
def join (sep : Char) : List Str → Str
  | [] => []
  | [a] => a
  | a :: b :: l => a ++ sep :: join sep (b :: l)

/-- `strings.Split`, at each character with the property. -/
def splitOn (p : Char → Bool) : Str → List Str
  | [] => [[]]
  | c :: s =>
    if p c then [] :: splitOn p s
    else match splitOn p s with
      | [] => [[c]]
      | w :: ws => (c :: w) :: ws

/-- `strings.Fields`; the only space in what `%d` writes is the blank. -/
def fields (s : Str) : List Str := (splitOn (· = ' ') s).filter (· ≠ [])

/-- `fmt.Sprintf("%d", b)` -/
def sprintd (b : Bytes) : Str := '[' :: (join ' ' (b.map dec) ++ [']'])

/-- webauthn.go:55-60; `none` is nil. -/
def marshal : Option Bytes → Str
  | none => "null".toList
  | some b => join ',' (fields (sprintd b))

/-- `JSON.stringify` of an array of numbers. -/
def stringify (l : List Nat) : Str := '[' :: (join ',' (l.map dec) ++ [']'])

/-- A JSON number that is a byte; anything else is an error for `Unmarshal`. -/
def parseByte (s : Str) : Option Nat :=
  if s = [] ∨ s.any (fun c => !c.isDigit) ∨ (s.head? = some '0' ∧ s.length ≠ 1) then none
  else
    let v := s.foldl (fun a c => 10 * a + (c.toNat - 48)) 0
    if v < 256 then some v else none

/-- `json.Unmarshal` of an array into `Bytes`. -/
def unmarshal : Str → Option Bytes
  | '[' :: r =>
    match r.reverse with
    | ']' :: m => if m = [] then some [] else (splitOn (· = ',') m.reverse).mapM parseByte
    | _ => none
  | _ => none

/-- `new Uint8Array(list)` -/
def uint8Array (l : List Nat) : Bytes := l.map (· % 256)

end Verif.ByteArrays
