/-
Model of proxy/hello.go: peeking at the TLS ClientHello.
-/
namespace Verif.Hello

/-- Go `[]byte`. -/
abbrev Bytes := List UInt8

/-- proxy/hello.go:38-41 `clientHello`. Go strings are byte strings. -/
structure ClientHello where
  serverName : Bytes := []
  alpnProtos : List Bytes := []
deriving DecidableEq, Repr

/-- Outcome of `peekClientHello` (proxy/hello.go:43): a hello, an error (the error text
is dropped), or a Go run-time panic. -/
inductive Result where
  | ok (h : ClientHello)
  | err
  | panic
deriving DecidableEq, Repr

/-- cryptobyte `String.Skip` (golang.org/x/crypto/cryptobyte, used at hello.go:53,80,99,105-107). -/
def skip (n : Nat) (s : Bytes) : Option Bytes :=
  if s.length < n then none else some (s.drop n)

/-- cryptobyte `ReadUint8` (hello.go:105,166). -/
def readU8 : Bytes → Option (Nat × Bytes)
  | b :: s => some (b.toNat, s)
  | [] => none

/-- cryptobyte `ReadUint16` (hello.go:57,106,134), big endian. -/
def readU16 : Bytes → Option (Nat × Bytes)
  | a :: b :: s => some (a.toNat * 256 + b.toNat, s)
  | _ => none

/-- cryptobyte `ReadBytes`/`read(n)` splitting off n bytes. -/
def readN (n : Nat) (s : Bytes) : Option (Bytes × Bytes) :=
  if s.length < n then none else some (s.take n, s.drop n)

/-- cryptobyte `ReadUint8LengthPrefixed` (hello.go:200). -/
def readU8Pref (s : Bytes) : Option (Bytes × Bytes) :=
  match readU8 s with
  | some (n, s) => readN n s
  | none => none

/-- cryptobyte `ReadUint16LengthPrefixed` (hello.go:112,134,160,172,195). -/
def readU16Pref (s : Bytes) : Option (Bytes × Bytes) :=
  match readU16 s with
  | some (n, s) => readN n s
  | none => none

theorem readN_length {n : Nat} {s a r : Bytes} (h : readN n s = some (a, r)) :
    a.length + r.length = s.length := by
  unfold readN at h; split at h <;> simp at h
  obtain ⟨rfl, rfl⟩ := h
  simp; omega

theorem readU8Pref_lt {s a r : Bytes} (h : readU8Pref s = some (a, r)) :
    r.length < s.length := by
  cases s with
  | nil => simp [readU8Pref, readU8] at h
  | cons b s =>
    simp [readU8Pref, readU8] at h
    have := readN_length h
    simp; omega

theorem readU16Pref_lt {s a r : Bytes} (h : readU16Pref s = some (a, r)) :
    r.length < s.length := by
  match s, h with
  | [], h => simp [readU16Pref, readU16] at h
  | [_], h => simp [readU16Pref, readU16] at h
  | a :: b :: s, h =>
    simp [readU16Pref, readU16] at h
    have := readN_length h
    simp; omega

/-- hello.go:163-176, the loop over the server name list. `name` is `hello.ServerName`
so far; an entry is refused when a non-empty name was already seen. -/
def parseNames (s : Bytes) (name : Bytes) : Option Bytes :=
  match s with
  | [] => some name
  | t :: s' =>
    if t ≠ 0 then none
    else
      match h : readU16Pref s' with
      | none => none
      | some (host, rest) =>
        if name ≠ [] then none else parseNames rest host
termination_by s.length
decreasing_by have := readU16Pref_lt h; simp; omega

/-- hello.go:198-204, the loop over the ALPN protocol name list. -/
def parseProtos (s : Bytes) (acc : List Bytes) : Option (List Bytes) :=
  match hs : s with
  | [] => some acc
  | _ :: _ =>
    match h : readU8Pref s with
    | none => none
    | some (p, rest) => parseProtos rest (acc ++ [p])
termination_by s.length
decreasing_by have := readU8Pref_lt h; subst hs; simpa using this

/-- hello.go:134, extension type and extension data. -/
def readExt (s : Bytes) : Option (Nat × Bytes × Bytes) :=
  match readU16 s with
  | none => none
  | some (t, s) =>
    match readU16Pref s with
    | none => none
    | some (d, r) => some (t, d, r)

theorem readExt_lt {s d r : Bytes} {t : Nat} (h : readExt s = some (t, d, r)) :
    r.length < s.length := by
  match s, h with
  | [], h => simp [readExt, readU16] at h
  | [_], h => simp [readExt, readU16] at h
  | a :: b :: s, h =>
    simp [readExt, readU16] at h
    split at h <;> simp at h
    rename_i h'
    have := readU16Pref_lt h'
    obtain ⟨_, _, rfl⟩ := h
    simp; omega

/-- hello.go:137-205, the body of the `switch extType`. Bytes following the inner list
inside the extension data are ignored, as in the Go code. -/
def applyExt (t : Nat) (data : Bytes) (h : ClientHello) : Option ClientHello :=
  if t = 0 then
    match readU16Pref data with
    | none => none
    | some (l, _) =>
      match parseNames l h.serverName with
      | none => none
      | some n => some { h with serverName := n }
  else if t = 16 then
    match readU16Pref data with
    | none => none
    | some (l, _) =>
      match parseProtos l h.alpnProtos with
      | none => none
      | some ps => some { h with alpnProtos := ps }
  else some h

/-- hello.go:131-206, the loop over extensions. -/
def parseExts (s : Bytes) (h : ClientHello) : Option ClientHello :=
  match hs : s with
  | [] => some h
  | _ :: _ =>
    match he : readExt s with
    | none => none
    | some (t, data, rest) =>
      match applyExt t data h with
      | none => none
      | some h' => parseExts rest h'
termination_by s.length
decreasing_by have := readExt_lt he; subst hs; simpa using this

/-- hello.go:79-112 after the message type check: everything up to the extensions block.
Bytes after the extensions block are ignored. -/
def helloExtensions (body : Bytes) : Option Bytes := do
  let s ← skip 4 body
  let s ← skip 34 s
  let (n, s) ← readU8 s
  let s ← skip n s
  let (n, s) ← readU16 s
  let s ← skip n s
  let (n, s) ← readU8 s
  let s ← skip n s
  let (ext, _) ← readU16Pref s
  pure ext

/-- hello.go:64-207: parsing of the record body (`buf[5:]`). `buf[0]` on an empty slice
is a Go run-time panic (hello.go:76). -/
def parseBody (body : Bytes) : Result :=
  match body with
  | [] => .panic
  | b :: _ =>
    if b ≠ 1 then .err
    else
      match helloExtensions body with
      | none => .err
      | some ext =>
        match parseExts ext {} with
        | none => .err
        | some h => .ok h

/-- What happened when inspecting a stream: how many bytes each `Peek` asked for, and the
result. -/
structure Run where
  peeks : List Nat
  res : Result
deriving DecidableEq, Repr

/-- hello.go:43-208 `peekClientHello`. `st` is everything the peer sends before it stalls
or closes; `Peek(n)` succeeds iff `n` bytes are available (netw.go:183-199), otherwise it
reports an error (after the stall ends). -/
def peekClientHello (st : Bytes) : Run :=
  match st with
  | b0 :: _ :: _ :: b3 :: b4 :: rest =>
    if b0 ≠ 0x16 then ⟨[5], .err⟩
    else
      let length := b3.toNat * 256 + b4.toNat
      if length > 16384 then ⟨[5], .err⟩
      else if rest.length < length then ⟨[5, 5 + length], .err⟩
      else ⟨[5, 5 + length], parseBody (rest.take length)⟩
  | _ => ⟨[5], .err⟩

/-- hello.go:226-235 `sendAlert`. -/
def sendAlert (level desc : UInt8) : Bytes := [0x15, 0x03, 0x03, 0x00, 0x02, level, desc]

/-- hello.go:210-224. -/
def sendCloseNotify : Bytes := sendAlert 2 0x00
/-- hello.go:214-216. -/
def sendHandshakeFailure : Bytes := sendAlert 2 0x28
/-- hello.go:218-220. -/
def sendInternalError : Bytes := sendAlert 2 0x50
/-- hello.go:222-224. -/
def sendUnrecognizedName : Bytes := sendAlert 2 0x70

end Verif.Hello
