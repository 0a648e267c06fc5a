/-
Model of proxy/xfcc.go: the X-Forwarded-Client-Cert header.
-/
namespace Verif.Xfcc

abbrev Str := List Char

/-- `strings.ReplaceAll(s, c, r)` for a single character `c`. -/
def replaceAll (c : Char) (r : Str) (s : Str) : Str := s.flatMap fun x => if x = c then r else [x]

/-- xfcc.go:99-106 `encodeXFCC`. -/
def encode (s : Str) : Str :=
  let s := replaceAll '\\' ['\\', '\\'] s
  let s := replaceAll '"' ['\\', '"'] s
  if s.any fun c => c = ',' ∨ c = ';' ∨ c = '=' then '"' :: (s ++ ['"']) else s

/-- The loop xfcc.go:81-92 and 93-95: `cur` is the string builder. -/
def subjectParts : Str → Bool → Str → List Str
  | [], _, cur => if cur ≠ [] then [cur] else []
  | r :: t, esc, cur =>
    if r = ',' ∧ ¬ esc then cur :: subjectParts t false []
    else subjectParts t (!esc && r = '\\') (cur ++ [r])

/-- xfcc.go:77-97 `encodeXFCCSubject`. Strings are sequences of runes (invalid UTF-8, which the
code replaces by U+FFFD, is not modelled). -/
def encodeSubject (s : Str) : Str := encode ('/' :: List.intercalate ['/'] (subjectParts s false []))

/-- The part of a certificate that the fields are made from: PEM text of the certificate and of
the verified chains, hash, subject, URIs and DNS names. -/
structure Cert where
  pem : Str := []
  chains : List Str := []
  hash : Str := []
  subject : Str := []
  uris : List Str := []
  dns : List Str := []

/-- xfcc.go:43-74: the fields for the configured list of (lower case) names; `qe` is
`url.QueryEscape`. -/
def fields (qe : Str → Str) (c : Cert) (which : List String) : List (Str × Str) :=
  which.flatMap fun f =>
    if f = "cert" then [("Cert".toList, encode (qe c.pem))]
    else if f = "chain" then c.chains.map fun x => ("Chain".toList, encode (qe x))
    else if f = "hash" then [("Hash".toList, encode c.hash)]
    else if f = "subject" then [("Subject".toList, encodeSubject c.subject)]
    else if f = "uri" then c.uris.map fun x => ("URI".toList, encode (qe x))
    else if f = "dns" then c.dns.map fun x => ("DNS".toList, encode (qe x))
    else []

/-- xfcc.go:75: `strings.Join(fields, ";")` where each field is name, '=', value. -/
def header (fs : List (Str × Str)) : Str := List.intercalate [';'] (fs.map fun f => f.1 ++ '=' :: f.2)

end Verif.Xfcc
