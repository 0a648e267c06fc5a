/-!
# The configuration shown on the console

Model of the redaction in `Proxy.metricsHandler`, proxy/metrics.go:574-591, and of
`Config.clone`, proxy/config.go:771-776.

The objects that hold secrets are behind pointers in Go (`[]*ConfigOIDC`,
`[]*LocalOIDCClient`), and redaction writes through these pointers, so the model has a heap.
Simplifications: everything of an object that is not a secret is one opaque value `pub`; the YAML
encoder is an arbitrary function of what the configuration denotes (`View`); encoding and decoding
preserves the fields in question.
-/

namespace Verif.Console

abbrev Str := List Char

/-- `ConfigOIDC` (secret: `ClientSecret`, config.go:519) and `LocalOIDCClient` (secret: `Secret`,
config.go:735). -/
structure Obj where
  pub : Str
  secret : Str
  deriving DecidableEq, Repr, Inhabited

/-- A pointer is an index into the heap. -/
abbrev Heap := List Obj

/-- Follow a pointer. -/
def deref (h : Heap) (r : Nat) : Obj := h.getD r ⟨[], []⟩

/-- `Backend`: `sso` is nil, or has a local OIDC server that is nil, or has clients. -/
structure Backend where
  pub : Str
  sso : Option (Option (List Nat))
  deriving DecidableEq, Repr

structure Cfg where
  pub : Str
  providers : List Nat
  backends : List Backend
  deriving DecidableEq, Repr

/-- Copy the objects behind some pointers to fresh places. -/
def cloneRefs (h : Heap) (rs : List Nat) : Heap × List Nat :=
  (h ++ rs.map (deref h), List.range' h.length rs.length)

/-- One backend of `clone`. -/
def cloneBackend (h : Heap) (b : Backend) : Heap × Backend :=
  match b.sso with
  | some (some rs) =>
    let (h', rs') := cloneRefs h rs
    (h', { b with sso := some (some rs') })
  | _ => (h, b)

/-- The backends of `clone`. -/
def cloneBackends : Heap → List Backend → Heap × List Backend
  | h, [] => (h, [])
  | h, b :: bs =>
    let (h1, b') := cloneBackend h b
    let (h2, bs') := cloneBackends h1 bs
    (h2, b' :: bs')

/-- `Config.clone`, config.go:771-776: serialize and unmarshal into a new object. -/
def clone (h : Heap) (c : Cfg) : Heap × Cfg :=
  let (h1, ps) := cloneRefs h c.providers
  let (h2, bs) := cloneBackends h1 c.backends
  (h2, { c with providers := ps, backends := bs })

def redacted : Str := "**REDACTED**".toList

/-- `p.ClientSecret = "**REDACTED**"`, `client.Secret = "**REDACTED**"`: a write through a
pointer. -/
def redactRef (h : Heap) (r : Nat) : Heap :=
  h.set r { deref h r with secret := redacted }

/-- The loops of metrics.go:575-585. -/
def redactBackend (h : Heap) (b : Backend) : Heap :=
  match b.sso with
  | none => h
  | some none => h
  | some (some rs) => rs.foldl redactRef h

def redact (h : Heap) (c : Cfg) : Heap :=
  c.backends.foldl redactBackend (c.providers.foldl redactRef h)

/-- What a configuration denotes, pointers followed. -/
structure View where
  pub : Str
  providers : List Obj
  backends : List (Str × Option (Option (List Obj)))
  deriving DecidableEq, Repr

def view (h : Heap) (c : Cfg) : View :=
  { pub := c.pub
    providers := c.providers.map (deref h)
    backends := c.backends.map fun b => (b.pub, b.sso.map (·.map (·.map (deref h)))) }

/-- metrics.go:574-591: the heap afterwards and the text shown, for an encoder `enc`. -/
def show' (enc : View → Str) (h : Heap) (c : Cfg) : Heap × Str :=
  let (h1, c1) := clone h c
  let h2 := redact h1 c1
  (h2, enc (view h2 c1))

end Verif.Console
