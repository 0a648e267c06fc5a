import Verif.Model.Path
/-!
# The files in PEM form that the certificate authority gives out

Model of `certificate.pem` (proxy/internal/pki/pki.go:188-193), `RevocationListPEM` (pki.go:458-473), the two branches of
`ServeCACert` (proxy/internal/pki/http.go:85-99), the `.pem` branch of `ServeCRL` (http.go:105-114), and the download of a certificate
(`handleDownloadCert`, http.go:475).

`pem.Encode` and the encoder of encoding/base64 are library code, written down from memory (Go 1.23). The encoder hands its text
over in pieces whose sizes depend on its buffers; here the pieces are a parameter. The blocks have no headers. `RevocationList` is
in `Verif.Model.Pki`; what it returns is a parameter. Writes to the connection succeed.
-/
namespace Verif.Pem

open Verif.Path (Str)

/-- The alphabet of `base64.StdEncoding`. -/
def alphabet : Str := "ABCDEFGHIJKLMNOPQRSTUVWXYZabcdefghijklmnopqrstuvwxyz0123456789+/".toList

def stdDigit (n : Nat) : Char := alphabet.getD (n % 64) 'A'

/-- Go encoding/base64 `Encode` for `StdEncoding`: three bytes are put together and cut into four digits; one or two bytes at the end
give two or three digits and are filled up with '='. -/
def encodeStd : List Nat → Str
  | [] => []
  | [a] => [stdDigit (a * 65536 / 262144), stdDigit (a * 65536 / 4096), '=', '=']
  | [a, b] =>
    let v := a * 65536 + b * 256
    [stdDigit (v / 262144), stdDigit (v / 4096), stdDigit (v / 64), '=']
  | a :: b :: c :: t =>
    let v := a * 65536 + b * 256 + c
    stdDigit (v / 262144) :: stdDigit (v / 4096) :: stdDigit (v / 64) :: stdDigit v :: encodeStd t

/-- `lineBreaker` of encoding/pem: what was written, and the line that is not full yet. -/
structure Breaker where
  out : Str := []
  line : Str := []

/-- `lineBreaker.Write`: `if l.used+len(b) < pemLineLength { copy(l.line[l.used:], b) … }`, otherwise the line is filled up and
written with a line break, and the rest follows. -/
def Breaker.write (s : Breaker) (b : Str) : Breaker :=
  if s.line.length + b.length < 64 then { s with line := s.line ++ b }
  else Breaker.write { out := s.out ++ s.line ++ b.take (64 - s.line.length) ++ ['\n'], line := [] }
    (b.drop (64 - s.line.length))
termination_by s.line.length + b.length
decreasing_by
  simp only [List.length_drop, List.length_nil]
  omega

/-- `lineBreaker.Close`. -/
def Breaker.close (s : Breaker) : Str :=
  if s.line.length > 0 then s.out ++ s.line ++ ['\n'] else s.out

/-- `pem.Encode` of a block without headers. `cut` is how the encoder hands the text over. -/
def encodeBlock (cut : Str → List Str) (type : Str) (bytes : List Nat) : Str :=
  "-----BEGIN ".toList ++ type ++ "-----\n".toList ++
  ((cut (encodeStd bytes)).foldl Breaker.write {}).close ++
  "-----END ".toList ++ type ++ "-----\n".toList

/-- pki.go:188-193 `certificate.pem`; http.go:475 for a download. -/
def certPem (cut : Str → List Str) (raw : List Nat) : Str := encodeBlock cut "CERTIFICATE".toList raw

/-- http.go:87-91: the certificate of the authority, and those of its delegates. -/
def caFile (cut : Str → List Str) (ca : List Nat) (delegates : List (List Nat)) : Str :=
  delegates.foldl (fun out c => out ++ certPem cut c) (certPem cut ca)

/-- http.go:95-98, for a path that does not end in ".pem". -/
def caDer (ca : List Nat) (delegates : List (List Nat)) : List Nat := delegates.foldl (fun out c => out ++ c) ca

/-- pki.go:458-473 `RevocationListPEM`: `none` is an error of `RevocationList`. -/
def crlFile (cut : Str → List Str) (list : Option (List Nat × List Nat)) : Option Str :=
  match list with
  | none => none
  | some (cert, crl) => some (encodeBlock cut "CERTIFICATE".toList cert ++ encodeBlock cut "X509 CRL".toList crl)

end Verif.Pem
