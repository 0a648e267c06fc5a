/-!
# Who may register passkeys

Model of the part of `Proxy.Reconfigure` that gives access lists to the managers of passkeys (proxy/proxy.go:736-773 and
454-460), of `Manager.SetACL` (proxy/internal/passkeys/manager.go:166-168) and of `Manager.subjectIsAllowed` (699-705), which
decides at `AddKey` (456-459).

Providers are in a map of Go: they come in any order. The addresses of callbacks are the hosts that `hostAndPath` makes of them;
`none` is an address that cannot be parsed.
-/
namespace Verif.Enrol

abbrev Str := List Char
abbrev Acl := Option (List Str)

/-- An element of `identityProviders`, proxy.go:318-390. -/
structure Provider where
  name : Str
  /-- its type is `*passkeys.Manager` -/
  passkeys : Bool
  /-- the host of its callback; for passkeys, of `Endpoint` -/
  host : Option Str
  deriving DecidableEq, Repr

/-- `BackendSSO`, as far as it matters. -/
structure Sso where
  provider : Str
  acl : Acl
  deriving DecidableEq, Repr

/-- A backend, by its single sign-on, if any. -/
abbrev Backend := Option Sso

/-- `backends[beKey{serverName: host}]`, for names that are configured. -/
abbrev Backends := Str → Option Backend

/-- The managers' `acl` fields, by the name of the provider. -/
abbrev Acls := Str → Acl

/-- manager.go:166-168 -/
def setACL (s : Acls) (m : Str) (acl : Acl) : Acls := fun x => if x = m then acl else s x

/-- `be.SSO.p.(*passkeys.Manager)` -/
def isManager (all : List Provider) (name : Str) : Bool := all.any fun p => p.name = name && p.passkeys

/-- proxy.go:736-757 for the callback of a provider. -/
def addCallback (all : List Provider) (bes : Backends) (s : Acls) (p : Provider) : Acls :=
  match p.host with
  | none => s
  | some h =>
    match bes h with
    | some (some sso) => if isManager all sso.provider then setACL s sso.provider sso.acl else s
    | _ => s

/-- proxy.go:759-773, in the order of the list. -/
def acls (bes : Backends) (order : List Provider) : Acls := order.foldl (addCallback order bes) fun _ => none

/-- `strings.Cut(s, "@")`, the part after. -/
def domain : Str → Str
  | [] => []
  | c :: s => if c = '@' then s else domain s

/-- manager.go:699-705 -/
def subjectIsAllowed (acl : Acl) (email : Str) : Bool :=
  match acl with
  | none => true
  | some l => l.contains email || l.contains ('@' :: domain email)

end Verif.Enrol
