import Verif.Model.Saml
import Verif.Model.Token
/-!
# Reading a SAML response

Model of the part of `HandleCallback` that reads the XML document (proxy/internal/saml/saml.go:171-261),
with `findElementText` and `findElementAttr` (saml.go:288-306). The state machine around it is
`Verif.Model.Saml`.

The XML library (beevik/etree) is modelled by what it does for the paths and methods used here, from its
documentation and from memory: a path without prefixes selects by local name whatever the prefix, level by
level; `Text` is the character data before the first child that is neither character data nor a comment;
`SelectAttr` returns the first attribute with that local name. The signature check
(`dsig.ValidationContext.Validate`) is a parameter that returns the element it vouches for. Base64 and the XML
parser come before and are left out.
-/

namespace Verif.SamlDoc

abbrev Str := List Char

structure Attr where
  space : Str
  key : Str
  value : Str
  deriving DecidableEq, Repr

/-- `etree.Token`: elements, character data, comments, and processing instructions or directives. -/
inductive Node where
  | elem (space tag : Str) (attrs : List Attr) (kids : List Node)
  | text (s : Str)
  | comment (s : Str)
  | other (s : Str)

def Node.kids : Node → List Node
  | .elem _ _ _ k => k
  | _ => []

def Node.attrs : Node → List Attr
  | .elem _ _ a _ => a
  | _ => []

def Node.isTag (t : Str) : Node → Bool
  | .elem _ tag _ _ => tag == t
  | _ => false

/-- etree `selectChildrenByTag`. -/
def byTag (t : Str) (e : Node) : List Node := e.kids.filter (·.isTag t)

/-- `FindElements("./a/b/c")`. -/
def findAll (e : Node) (path : List Str) : List Node :=
  path.foldl (fun es t => es.flatMap (byTag t)) [e]

/-- `FindElement`. -/
def find (e : Node) (path : List Str) : Option Node := (findAll e path).head?

/-- The loop of etree's `Text`. -/
def leading : List Node → Str
  | .text s :: r => s ++ leading r
  | .comment _ :: r => leading r
  | _ => []

def Node.text' (e : Node) : Str := leading e.kids

/-- `SelectAttr`. -/
def selectAttr (e : Node) (k : Str) : Option Str := (e.attrs.find? (·.key == k)).map (·.value)

/-- saml.go:288-294 `findElementText`. -/
def findText (e : Node) (p : List Str) : Str :=
  match find e p with
  | none => []
  | some v => v.text'

/-- saml.go:296-306 `findElementAttr`. -/
def findAttr (e : Node) (p : List Str) (a : Str) : Str :=
  match find e p with
  | none => []
  | some v =>
    match selectAttr v a with
    | none => []
    | some x => x

def confirmation : List Str :=
  ["Subject".toList, "SubjectConfirmation".toList, "SubjectConfirmationData".toList]

/-- What is read for the checks of saml.go:208-239; `num` numbers the identifiers of requests, `time` is
`time.Parse(time.RFC3339Nano, …)`. -/
def assertion (num : Str → Option Nat) (time : Str → Option Nat) (v : Node) : Saml.Assertion where
  inResponseTo := num (findAttr v confirmation "InResponseTo".toList)
  recipient := findAttr v confirmation "Recipient".toList
  audience := findText v ["Conditions".toList, "AudienceRestriction".toList, "Audience".toList]
  notBefore := time (findAttr v ["Conditions".toList] "NotBefore".toList)
  notOnOrAfter := time (findAttr v ["Conditions".toList] "NotOnOrAfter".toList)
  nameID := findText v ["Subject".toList, "NameID".toList]

/-- `map[string]any`. -/
abbrev Claims := List (Str × Str)

def Claims.set (c : Claims) (k v : Str) : Claims := (k, v) :: c.filter (·.1 ≠ k)

/-- The body of the loop of saml.go:244-255. -/
def addAttribute (c : Claims) (a : Node) : Claims :=
  match selectAttr a "Name".toList with
  | none => c
  | some k => c.set k (findText a ["AttributeValue".toList])

/-- saml.go:241-255. -/
def extraClaims (v : Node) : Claims :=
  (findAll v ["AttributeStatement".toList, "Attribute".toList]).foldl addAttribute
    [("source".toList, findText v ["Issuer".toList])]

/-- The arguments of `SetAuthTokenCookie` and `http.Redirect`, saml.go:256-260. -/
structure Login where
  sub : Str
  sid : Str
  host : Str
  url : Str
  claims : Claims
  deriving DecidableEq, Repr

/-- saml.go:176-187: the element whose contents are used. -/
def signedPart (dsig : Node → Option Node) (root : Node) : Option Node :=
  match find root ["Assertion".toList] with
  | none => none
  | some a => dsig a

/-- saml.go:188-260 from the validated element on; `pending` is `p.states` after old entries were removed. -/
def loginFrom (cfg : Saml.Config) (time : Str → Option Nat) (pending : Str → Option Saml.Pending) (now : Nat)
    (v : Node) : Option Login :=
  let id := findAttr v confirmation "InResponseTo".toList
  match pending id with
  | none => none
  | some p =>
    if Saml.accept cfg (assertion (fun _ => none) time v) now then
      some { sub := findText v ["Subject".toList, "NameID".toList], sid := id, host := p.host, url := p.url,
             claims := extraClaims v }
    else none

/-- saml.go:171-260. -/
def handle (cfg : Saml.Config) (time : Str → Option Nat) (pending : Str → Option Saml.Pending) (now : Nat)
    (dsig : Node → Option Node) (root : Node) : Option Login :=
  match signedPart dsig root with
  | none => none
  | some v => loginFrom cfg time pending now v

/-- The claims as the cookie manager gets them. -/
def Login.extra (l : Login) : Token.Claims := l.claims.map fun p => (String.ofList p.1, .str p.2)

/-- saml.go:256: the token in the cookie. -/
def Login.token (hash : Str → Str) (cm : Token.Cm) (now : Nat) (l : Login) : Option Token.Claims :=
  Token.authToken hash cm now l.sub l.sub l.sid l.host l.extra

end Verif.SamlDoc
