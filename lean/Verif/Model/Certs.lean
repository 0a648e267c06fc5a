import Verif.Model.Path
/-
Model of the choice of the certificate for a server name: `baseTLSConfig` (proxy/proxy.go:1032-1079) and
`getCertFromConfig` (proxy.go:1081-1103), with Go's `path.Match`. Stapling is in the model of OCSP.

Names and patterns are taken to be ASCII (server names on the wire are), so that the bytes and the characters
of Go are the same.
-/
namespace Verif.Certs

open Verif.Path (Str)

/-! ## path.Match

The standard library is not part of /repo, and its source is not available here: the definitions below follow
its `path/match.go` from memory, function by function. -/

/-- The part of a pattern that stands for one character of the name. -/
inductive Tok where
  | lit (c : Char)
  | any
  | cls (negated : Bool) (ranges : List (Char × Char))
deriving DecidableEq, Repr

/-- `getEsc`: a character of a class, possibly escaped; more must follow. -/
def getEsc : Str → Option (Char × Str)
  | [] => none
  | '\\' :: c :: d :: t => some (c, d :: t)
  | '\\' :: _ => none
  | c :: d :: t => if c = '-' ∨ c = ']' then none else some (c, d :: t)
  | [_] => none

theorem getEsc_lt {s t : Str} {c : Char} (h : getEsc s = some (c, t)) : t.length < s.length := by
  unfold getEsc at h
  split at h
  · cases h
  · cases h; simp
  · cases h
  · split at h
    · cases h
    · cases h; simp
  · cases h

/-- One range of a class: `lo`, or `lo-hi`. -/
def getRange (s : Str) : Option ((Char × Char) × Str) :=
  match getEsc s with
  | none => none
  | some (lo, '-' :: t) =>
    match getEsc t with
    | none => none
    | some (hi, t') => some ((lo, hi), t')
  | some (lo, t) => some ((lo, lo), t)

theorem getRange_lt {s t : Str} {r : Char × Char} (h : getRange s = some (r, t)) : t.length < s.length := by
  unfold getRange at h
  split at h
  · cases h
  · rename_i hg
    have h1 := getEsc_lt hg
    split at h
    · cases h
    · rename_i hg'
      have h2 := getEsc_lt hg'
      cases h
      simp at h1
      omega
  · rename_i hg
    cases h
    exact getEsc_lt hg

/-- The ranges of a class up to the closing bracket; `acc` are those read so far. -/
def getRanges (acc : List (Char × Char)) (s : Str) : Option (List (Char × Char) × Str) :=
  if acc ≠ [] ∧ s.head? = some ']' then some (acc, s.tail)
  else
    match h : getRange s with
    | none => none
    | some (r, t) => getRanges (acc ++ [r]) t
termination_by s.length
decreasing_by exact getRange_lt h

theorem getRanges_lt {acc rs : List (Char × Char)} {s t : Str} (h : getRanges acc s = some (rs, t)) :
    t.length < s.length := by
  fun_induction getRanges acc s with
  | case1 acc s hc =>
    cases h
    cases s with
    | nil => simp at hc
    | cons a s => simp
  | case2 acc s hc hr => cases h
  | case3 acc s hc r u hr ih =>
    have := getRange_lt hr
    have := ih h
    omega

/-- A class after its opening bracket. -/
def getClass : Str → Option (Tok × Str)
  | '^' :: t =>
    match getRanges [] t with
    | none => none
    | some (rs, u) => some (.cls true rs, u)
  | t =>
    match getRanges [] t with
    | none => none
    | some (rs, u) => some (.cls false rs, u)

theorem getClass_lt {s t : Str} {k : Tok} (h : getClass s = some (k, t)) : t.length < s.length := by
  unfold getClass at h
  split at h
  · split at h
    · cases h
    · rename_i hr
      cases h
      have := getRanges_lt hr
      simp; omega
  · split at h
    · cases h
    · rename_i hr
      cases h
      exact getRanges_lt hr

/-- The syntax of a chunk, a piece of a pattern without '*': `matchChunk` reads all of it whatever the name
is, and reports an error exactly if it is malformed. -/
def toks : Str → Option (List Tok)
  | [] => some []
  | '[' :: t =>
    match h : getClass t with
    | none => none
    | some (k, u) =>
      have : u.length < t.length := getClass_lt h
      (toks u).map (k :: ·)
  | '?' :: t => (toks t).map (.any :: ·)
  | '\\' :: c :: t => (toks t).map (.lit c :: ·)
  | ['\\'] => none
  | c :: t => (toks t).map (.lit c :: ·)
termination_by s => s.length

/-- One step of `matchChunk`. -/
def Tok.accepts : Tok → Char → Bool
  | .lit c, d => c = d
  | .any, d => d ≠ '/'
  | .cls neg rs, d => (rs.any fun r => r.1 ≤ d ∧ d ≤ r.2) != neg

/-- `matchChunk` for a well-formed chunk: what is left of the name, if the chunk matches its beginning. -/
def matchToks : List Tok → Str → Option Str
  | [], s => some s
  | _ :: _, [] => none
  | k :: ks, c :: s => if k.accepts c then matchToks ks s else none

/-- The stars at the beginning of a pattern (`scanChunk`). -/
def stars (p : Str) : Bool × Str := (p.head? = some '*', p.dropWhile (· = '*'))

/-- The rest of `scanChunk`: up to the next star that is neither in brackets nor escaped. -/
def scan (inRange : Bool) : Str → Str × Str
  | '\\' :: c :: t => let r := scan inRange t; ('\\' :: c :: r.1, r.2)
  | '[' :: t => let r := scan true t; ('[' :: r.1, r.2)
  | ']' :: t => let r := scan false t; (']' :: r.1, r.2)
  | '*' :: t => if inRange then let r := scan inRange t; ('*' :: r.1, r.2) else ([], '*' :: t)
  | c :: t => let r := scan inRange t; (c :: r.1, r.2)
  | [] => ([], [])

/-- The loop over the positions behind a star: the first match, which must reach the end if it is the last
chunk. -/
def skipTo (ks : List Tok) (last : Bool) : Str → Option Str
  | [] => none
  | c :: s =>
    if c = '/' then none
    else
      match matchToks ks s with
      | some t => if last ∧ t ≠ [] then skipTo ks last s else some t
      | none => skipTo ks last s

/-- A chunk, at the current position or behind a star. -/
def place (star : Bool) (ks : List Tok) (last : Bool) (name : Str) : Option Str :=
  match matchToks ks name with
  | some t => if t = [] ∨ last = false then some t else if star then skipTo ks last name else none
  | none => if star then skipTo ks last name else none

/-- The rest of a pattern is checked after a mismatch. -/
def wellFormed (p : Str) : Bool :=
  if p = [] then true
  else
    let r := scan false (stars p).2
    if (toks r.1).isNone then false
    else if h : r.2.length < p.length then wellFormed r.2 else true
termination_by p.length

/-- `path.Match`; `none` is an error. The pattern becomes shorter in every turn; the test for that is only
there for Lean. -/
def goMatch (p name : Str) : Option Bool :=
  if p = [] then some (name = [])
  else
    let st := stars p
    let r := scan false st.2
    if st.1 ∧ r.1 = [] then some ('/' ∉ name)
    else
      match toks r.1 with
      | none => none
      | some ks =>
        match place st.1 ks (r.2 = []) name with
        | some t => if r.2.length < p.length then goMatch r.2 t else none
        | none => if wellFormed r.2 then some false else none
termination_by p.length

/-! ## The choice of the certificate -/

/-- config.go:205-214 `TLSCertificate`; `pair` is what `tls.LoadX509KeyPair` makes of the files: a
certificate, or `none` on error. -/
structure Entry where
  serverNames : List Str
  pair : Option Nat

/-- proxy.go:1085-1092. -/
def nameMatches (v serverName : Str) : Bool :=
  v = serverName ∨ goMatch v serverName = some true

inductive Chosen where
  /-- a certificate of the configuration -/
  | configured (cert : Nat)
  /-- an error, the handshake fails -/
  | error
  /-- a certificate of the certificate manager for this name -/
  | managed (serverName : Str)
deriving DecidableEq, Repr

/-- proxy.go:1081-1103 `getCertFromConfig`: `none` is no certificate and no error. -/
def getCertFromConfig (entries : List Entry) (serverName : Str) : Option Chosen :=
  match entries with
  | [] => none
  | e :: es =>
    if e.serverNames.any fun v => nameMatches v serverName then
      match e.pair with
      | some c => some (.configured c)
      | none => some .error
    else getCertFromConfig es serverName

/-- proxy.go:1035-1053: the certificate for a ClientHello. `autocert` says that the certificate manager is
autocert, which needs the terms of service to be accepted. -/
def getCertificate (entries : List Entry) (default : Str) (acceptTOS autocert : Bool) (sni : Str) : Chosen :=
  let n := if sni = [] then default else sni
  match getCertFromConfig entries n with
  | some r => r
  | none => if ¬ acceptTOS ∧ autocert then .error else .managed n

end Verif.Certs
