import Verif.Model.Pem
/-!
# Reading PEM files

Model of `pem.Decode` of encoding/pem, and of the loop around it in `readRootKeyAndCert` (certmanager/certmanager.go:151-156) and
`acmeAllCerts` (proxy/revoke.go:216-220), which read what `saveRootKeyAndCert` (certmanager.go:183-206) and autocert wrote with
`pem.Encode`; of `handleRequestCert` (proxy/internal/pki/http.go:374-379), which reads what `MakeCSR` wrote
(proxy/internal/pki/clientwasm/impl/impl.go:78). The loop of `readCerts` (proxy/internal/saml/saml.go:274-284) is in
`Verif.Model.Saml`.

The library is written down from memory (Go 1.23). Headers are read but not kept: nothing here uses them.
-/
namespace Verif.Pem

open Verif.Path (Str)

/-- `bytes.Cut`: what is before and after the first occurrence. -/
def cutAt (pat : Str) : Str → Option (Str × Str)
  | [] => if pat.isPrefixOf [] then some ([], []) else none
  | c :: s =>
    if pat.isPrefixOf (c :: s) then some ([], (c :: s).drop pat.length)
    else (cutAt pat s).map fun r => (c :: r.1, r.2)

/-- `bytes.TrimRight(…, " \t")`. -/
def trimBlanks (s : Str) : Str := (s.reverse.dropWhile fun c => c = ' ' ∨ c = '\t').reverse

/-- `getLine`: the line without the blanks and the line break at its end, and the rest. -/
def getLine (s : Str) : Str × Str :=
  match cutAt ['\n'] s with
  | none => (trimBlanks s, [])
  | some (l, r) => (trimBlanks (if l.getLast? = some '\r' then l.dropLast else l), r)

/-- The value of a character of the standard alphabet. -/
def stdSextet (c : Char) : Option Nat :=
  if 'A' ≤ c ∧ c ≤ 'Z' then some (c.toNat - 65)
  else if 'a' ≤ c ∧ c ≤ 'z' then some (c.toNat - 71)
  else if '0' ≤ c ∧ c ≤ '9' then some (c.toNat + 4)
  else if c = '+' then some 62
  else if c = '/' then some 63
  else none

/-- `StdEncoding.Decode` after line breaks are taken out: groups of four, padding only at the end. -/
def decodeStd : Str → Option (List Nat)
  | [] => some []
  | [a, b, '=', '='] =>
    match stdSextet a, stdSextet b with
    | some x, some y => some [x * 4 + y / 16]
    | _, _ => none
  | [a, b, c, '='] =>
    match stdSextet a, stdSextet b, stdSextet c with
    | some x, some y, some z => some [x * 4 + y / 16, y % 16 * 16 + z / 4]
    | _, _, _ => none
  | a :: b :: c :: d :: t =>
    match stdSextet a, stdSextet b, stdSextet c, stdSextet d, decodeStd t with
    | some x, some y, some z, some w, some r => some ([x * 4 + y / 16, y % 16 * 16 + z / 4, z % 4 * 64 + w] ++ r)
    | _, _, _, _, _ => none
  | _ => none

/-- `removeSpacesAndTabs`, and the line breaks that the base64 decoder skips. -/
def squeeze (s : Str) : Str := s.filter fun c => c ≠ ' ' ∧ c ≠ '\t' ∧ c ≠ '\n' ∧ c ≠ '\r'

/-- The loop over the headers, at most as many as there are characters: `none` when the text ends. The other result is whether
there were any. -/
def skipHeaders : Nat → Bool → Str → Option (Bool × Str)
  | 0, _, _ => none
  | n + 1, any, rest =>
    if rest = [] then none
    else if ':' ∈ (getLine rest).1 then skipHeaders n true (getLine rest).2
    else some (any, rest)

/-- Where the last line begins: the text before it, and what follows "-----END ". -/
def findEnd (any : Bool) (rest : Str) : Option (Str × Str) :=
  if ¬ any ∧ "-----END ".toList.isPrefixOf rest then some ([], rest.drop 9)
  else cutAt "\n-----END ".toList rest

/-- The end of the last line, and the bytes. -/
def finish (type body after : Str) : Option ((Str × List Nat) × Str) :=
  if after.take (type.length + 5) ≠ type ++ "-----".toList then none
  else if (getLine (after.drop (type.length + 5))).1 ≠ [] then none
  else (decodeStd (squeeze body)).map fun b => ((type, b), (getLine after).2)

/-- What one round of the loop of `pem.Decode` comes to. -/
inductive Try
  | found (type : Str) (bytes : List Nat) (rest : Str)
  | again (rest : Str)
  | nothing

def begin? (s : Str) : Option Str :=
  if "-----BEGIN ".toList.isPrefixOf s then some (s.drop 11) else (cutAt "\n-----BEGIN ".toList s).map (·.2)

/-- After the first line. -/
def afterType (type rest : Str) : Try :=
  match skipHeaders (rest.length + 1) false rest with
  | none => .nothing
  | some (any, rest) =>
    match findEnd any rest with
    | none => .again rest
    | some (body, after) =>
      match finish type body after with
      | none => .again rest
      | some ((t, b), r) => .found t b r

def attempt (s : Str) : Try :=
  match begin? s with
  | none => .nothing
  | some s =>
    if "-----".toList.isSuffixOf (getLine s).1 then afterType ((getLine s).1.take ((getLine s).1.length - 5)) (getLine s).2
    else .again (getLine s).2

/-- `pem.Decode`; each round leaves less text, so as many rounds as there are characters are enough. -/
def decodeFuel : Nat → Str → Option ((Str × List Nat) × Str)
  | 0, _ => none
  | n + 1, s =>
    match attempt s with
    | .found t b r => some ((t, b), r)
    | .again r => decodeFuel n r
    | .nothing => none

def decode (s : Str) : Option ((Str × List Nat) × Str) := decodeFuel (s.length + 1) s

/-- `for { block, rest := pem.Decode(b); … if block == nil { break } … }`: certmanager.go:151-156, revoke.go:216-220. -/
def readAll : Nat → Str → List (Str × List Nat)
  | 0, _ => []
  | n + 1, s =>
    match decode s with
    | none => []
    | some (b, r) => b :: readAll n r

/-- certmanager.go:183-206 and others: one block after the other. -/
def writeAll (cut : Str → List Str) (bs : List (Str × List Nat)) : Str := bs.flatMap fun b => encodeBlock cut b.1 b.2

/-- certmanager.go:157-171, one block: `none` is an error. `parseKey` is `ParsePKCS8PrivateKey` for RSA keys, `parseCert` is
`ParseCertificate`. -/
def rootBlock {K C : Type} (parseKey : List Nat → Option K) (parseCert : List Nat → Option C) (b : Str × List Nat)
    (s : Option K × Option C) : Option (Option K × Option C) :=
  if b.1 = "PRIVATE KEY".toList then (parseKey b.2).map fun k => (some k, s.2)
  else if b.1 = "CERTIFICATE".toList then (parseCert b.2).map fun c => (s.1, some c)
  else some s

/-- certmanager.go:151-173. -/
def rootBlocks {K C : Type} (parseKey : List Nat → Option K) (parseCert : List Nat → Option C) :
    List (Str × List Nat) → Option K × Option C → Option (Option K × Option C)
  | [], s => some s
  | b :: bs, s =>
    match rootBlock parseKey parseCert b s with
    | none => none
    | some s => rootBlocks parseKey parseCert bs s

/-- certmanager.go:143-181 `readRootKeyAndCert` after the file was read. -/
def readRoot {K C : Type} (parseKey : List Nat → Option K) (parseCert : List Nat → Option C) (text : Str) : Option (K × C) :=
  match rootBlocks parseKey parseCert (readAll (text.length + 1) text) (none, none) with
  | some (some k, some c) => some (k, c)
  | _ => none

/-- certmanager.go:183-206 `saveRootKeyAndCert`. -/
def saveRoot (cut : Str → List Str) (key cert : List Nat) : Str :=
  writeAll cut [("PRIVATE KEY".toList, key), ("CERTIFICATE".toList, cert)]

end Verif.Pem
