import Verif.Model.Path
/-
Model of the HTTP side of the OCSP responder, `ServeOCSP` (proxy/internal/pki/http.go:126-185): how
the bytes of an OCSP request are taken out of a GET or POST request. Answering the request
(`OCSPResponse`) is in `Verif.Model.Pki`. Bytes are natural numbers below 256; each character of a
path is one byte.
-/
namespace Verif.OcspHttp

open Verif.Path (Str)

/-- The value of a hexadecimal digit (Go net/url `ishex` and `unhex`). -/
def unhex (c : Char) : Option Nat :=
  if '0' ≤ c ∧ c ≤ '9' then some (c.toNat - 48)
  else if 'a' ≤ c ∧ c ≤ 'f' then some (c.toNat - 87)
  else if 'A' ≤ c ∧ c ≤ 'F' then some (c.toNat - 55)
  else none

/-- http.go:136, Go net/url `PathUnescape`: `none` is an error. -/
def pathUnescape : Str → Option Str
  | [] => some []
  | '%' :: a :: b :: t =>
    match unhex a, unhex b, pathUnescape t with
    | some x, some y, some r => some (Char.ofNat (16 * x + y) :: r)
    | _, _, _ => none
  | ['%', _] => none
  | ['%'] => none
  | c :: t => (pathUnescape t).map (c :: ·)

/-- The value of a character of the alphabet of `base64.RawURLEncoding` (http.go:147). -/
def sextet (c : Char) : Option Nat :=
  if 'A' ≤ c ∧ c ≤ 'Z' then some (c.toNat - 65)
  else if 'a' ≤ c ∧ c ≤ 'z' then some (c.toNat - 71)
  else if '0' ≤ c ∧ c ≤ '9' then some (c.toNat + 4)
  else if c = '-' then some 62
  else if c = '_' then some 63
  else none

/-- The bytes of groups of four characters. Two or three characters may be left at the end; their
unused bits are ignored (`Strict` is not used). -/
def groups : List Nat → Option (List Nat)
  | [] => some []
  | [_] => none
  | [a, b] => some [a * 4 + b / 16]
  | [a, b, c] => some [a * 4 + b / 16, b % 16 * 16 + c / 4]
  | a :: b :: c :: d :: t =>
    (groups t).map ([a * 4 + b / 16, b % 16 * 16 + c / 4, c % 4 * 64 + d] ++ ·)

/-- http.go:147 `base64.RawURLEncoding.DecodeString`: line breaks are skipped. -/
def decode64 (s : Str) : Option (List Nat) :=
  match (s.filter fun c => c ≠ '\n' ∧ c ≠ '\r').mapM sextet with
  | none => none
  | some l => groups l

/-- http.go:143-145: the two alphabets are accepted, and blanks for '+'. -/
def translate (c : Char) : Char :=
  if c = ' ' then '-' else if c = '+' then '-' else if c = '/' then '_' else c

/-- http.go:146 `strings.TrimRight(data, "=")`. -/
def trimPad (s : Str) : Str := (s.reverse.dropWhile (· = '=')).reverse

/-- http.go:131-136 `path[strings.LastIndex(path, "/")+1:]`, `none` if there is no '/'. -/
def afterLast (p : Str) : Option Str :=
  if '/' ∈ p then some (p.reverse.takeWhile (· ≠ '/')).reverse else none

/-- What happens with a request: refused, or its bytes are parsed as an OCSP request. -/
inductive Out where
  | bad
  | parse (raw : List Nat)
deriving DecidableEq, Repr

/-- http.go:129-151 for a GET request with this (decoded) path. -/
def fromPath (path : Str) : Out :=
  match afterLast path with
  | none => .bad
  | some data =>
    match pathUnescape data with
    | none => .bad
    | some d =>
      match decode64 (trimPad (d.map translate)) with
      | none => .bad
      | some raw => .parse raw

/-- http.go:153-164 for a POST request. Read errors are left out (they refuse). -/
def fromBody (contentType : String) (body : List Nat) : Out :=
  if contentType ≠ "application/ocsp-request" then .bad
  else
    let raw := body.take 4096
    if raw.length = 4096 then .bad else .parse raw

/-- http.go:126-170 `ServeOCSP` up to the parser. -/
def serveOCSP (method : String) (path : Str) (contentType : String) (body : List Nat) : Out :=
  if method = "GET" then fromPath path
  else if method = "POST" then fromBody contentType body
  else .bad

end Verif.OcspHttp
