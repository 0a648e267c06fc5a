/-!
# Authenticator data

Model of `parseAuthenticatorData`, proxy/internal/passkeys/webauthn.go:221-269. `cbor.UnmarshalFirst`
(a dependency) is a parameter: it splits off the first CBOR item or fails. Slicing or indexing out
of range is an explicit `panic`.
-/

namespace Verif.Authdata

abbrev Bytes := List UInt8

/-- `attestedCredentials`, webauthn.go:202-206. -/
structure Creds where
  aaguid : Bytes
  id : Bytes
  cose : Bytes
  deriving DecidableEq, Repr

/-- `authenticatorData`, webauthn.go:189-199. -/
structure Data where
  rp : Bytes
  up : Bool
  uv : Bool
  be : Bool
  bs : Bool
  at' : Bool
  ed : Bool
  count : Nat
  creds : Option Creds
  deriving DecidableEq, Repr

inductive Res (α : Type) where
  | ok (a : α)
  | err
  | panic
  deriving DecidableEq, Repr

def Res.bind {α β : Type} (r : Res α) (f : α → Res β) : Res β :=
  match r with
  | .ok a => f a
  | .err => .err
  | .panic => .panic

/-- `raw[:n]` and `raw[n:]`. -/
def cut (n : Nat) (raw : Bytes) : Res (Bytes × Bytes) :=
  if n ≤ raw.length then .ok (raw.take n, raw.drop n) else .panic

/-- `raw[0]`. -/
def idx0 : Bytes → Res UInt8
  | [] => .panic
  | b :: _ => .ok b

/-- `binary.BigEndian.Uint32` and `Uint16` of a slice of that length. -/
def beNat (s : Bytes) : Nat := s.foldl (fun n b => n * 256 + b.toNat) 0

/-- The attested credential data, webauthn.go:239-263; what is left is not looked at. -/
def parseCreds (first : Bytes → Option (Bytes × Bytes)) (raw : Bytes) : Res Creds :=
  if raw.length < 18 then .err
  else
    (cut 16 raw).bind fun (aaguid, raw) =>
    (cut 2 raw).bind fun (s, raw) =>
    let sz := beNat s
    if sz > 1023 then .err
    else if raw.length < sz then .err
    else
      (cut sz raw).bind fun (id, raw) =>
      match first raw with
      | none => .err
      | some (cose, _) => .ok ⟨aaguid, id, cose⟩

/-- webauthn.go:221-269. -/
def parse (first : Bytes → Option (Bytes × Bytes)) (raw : Bytes) : Res Data :=
  if raw.length < 37 then .err
  else
    (cut 32 raw).bind fun (rp, raw) =>
    (idx0 raw).bind fun b =>
    let up := b &&& 1 != 0
    let uv := (b >>> 2) &&& 1 != 0
    let be := (b >>> 3) &&& 1 != 0
    let bs := (b >>> 4) &&& 1 != 0
    let at' := (b >>> 6) &&& 1 != 0
    let ed := (b >>> 7) &&& 1 != 0
    (cut 1 raw).bind fun (_, raw) =>
    (cut 4 raw).bind fun (c, raw) =>
    let count := beNat c
    if at' then
      (parseCreds first raw).bind fun creds => .ok ⟨rp, up, uv, be, bs, at', ed, count, some creds⟩
    else .ok ⟨rp, up, uv, be, bs, at', ed, count, none⟩

end Verif.Authdata
