/-!
# Log filters

Model of `proxy/logging.go:37-114` and of the assignment of the default filter, `proxy.go:436`.
Formatting and the logger itself are left out: a call either logs or not.
-/

namespace Verif.Logging

/-- `logType`, logging.go:29-35. -/
inductive Typ where
  | connection
  | request
  | error
  deriving DecidableEq, Repr

/-- `LogFilter`, config.go. -/
structure Filter where
  connections : Option Bool
  requests : Option Bool
  errors : Option Bool
  deriving DecidableEq, Repr

/-- One of the three loops of `shouldLog`. -/
def firstSet (field : Filter → Option Bool) : List Filter → Bool
  | [] => true
  | f :: t =>
    match field f with
    | some b => b
    | none => firstSet field t

/-- `shouldLog`, logging.go:87-114. -/
def shouldLog (typ : Typ) (f : List Filter) : Bool :=
  match typ with
  | .connection => firstSet Filter.connections f
  | .request => firstSet Filter.requests f
  | .error => firstSet Filter.errors f

/-- `Backend` with the filter `reconfigure` gives it, proxy.go:436. -/
structure Backend where
  filter : Filter
  default : Filter
  deriving DecidableEq, Repr

/-- proxy.go:431-436: every backend of the configuration gets the configuration's filter. -/
def configure (global : Filter) (bes : List Filter) : List Backend := bes.map fun f => ⟨f, global⟩

/-- `Backend.logConnF`, `logRequestF`, `logErrorF` and `logError`, logging.go:59-85. -/
def beLogs (be : Backend) (typ : Typ) : Bool := shouldLog typ [be.filter, be.default]

/-- `Proxy.logConnF`, logging.go:38-43; `none` is a nil configuration. -/
def proxyLogsConn (cfg : Option Filter) : Bool :=
  match cfg with
  | none => false
  | some f => shouldLog .connection [f]

/-- `Proxy.logError` and `logErrorF`, logging.go:45-57. -/
def proxyLogsError (cfg : Option Filter) : Bool :=
  match cfg with
  | none => true
  | some f => shouldLog .error [f]

end Verif.Logging
