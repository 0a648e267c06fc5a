import Verif.Model.Http
/-
Variables in configured headers and the Host header of forwarded requests:
proxy/backend-http.go:205-355, 357-395 and proxy/backend-sso.go:79-84, with the parts of os and
net/http they rely on.
-/
namespace Verif.Http

open Verif.Path (Str)

/-! ## os.Expand -/

/-- `isShellSpecialVar` of os/env.go. -/
def isSpecialVar (c : Char) : Bool :=
  c = '*' || c = '#' || c = '$' || c = '@' || c = '!' || c = '?' || c = '-' || ('0' ≤ c && c ≤ '9')

/-- `isAlphaNum` of os/env.go. -/
def isAlphaNum (c : Char) : Bool :=
  c = '_' || ('0' ≤ c && c ≤ '9') || ('a' ≤ c && c ≤ 'z') || ('A' ≤ c && c ≤ 'Z')

/-- The loop in `getShellName` that looks for the closing brace: the name up to it, if there is
one. -/
def toBrace : Str → Option Str
  | [] => none
  | c :: t => if c = '}' then some [] else (toBrace t).map (c :: ·)

/-- `getShellName` of os/env.go: the name of the variable and the number of characters that its
reference takes, after the dollar sign. The string is not empty. The special case for `${x}`
with a special character `x` gives what the loop would give and is left out. -/
def shellName : Str → Str × Nat
  | [] => ([], 0)
  | c :: t =>
    if c = '{' then
      match toBrace t with
      | none => ([], 1)
      | some [] => ([], 2)
      | some n => (n, n.length + 2)
    else if isSpecialVar c then ([c], 1)
    else ((c :: t).takeWhile isAlphaNum, ((c :: t).takeWhile isAlphaNum).length)

/-- What takes the place of a variable reference in `os.Expand`. -/
def varText (m : Str → Str) (n : Str × Nat) : Str :=
  if n.1 = [] ∧ 0 < n.2 then [] else if n.1 = [] then ['$'] else m n.1

/-- `os.Expand` of os/env.go. The indexes into the byte string become a recursion over the
characters: all the characters it looks for are ASCII. -/
def osExpand (m : Str → Str) : Str → Str
  | [] => []
  | c :: t =>
    if c = '$' ∧ t ≠ [] then varText m (shellName t) ++ osExpand m (t.drop (shellName t).2)
    else c :: osExpand m t
termination_by s => s.length
decreasing_by
  · simp only [List.length_drop, List.length_cons]; omega
  · simp

/-! ## The variables -/

/-- A `net.Addr`: its IP address in text form and its `String()`. -/
inductive NetAddr where
  | tcp (ip text : Str)
  | udp (ip text : Str)
  | other (network text : Str)

/-- The `Network()` of an address. -/
def NetAddr.network : NetAddr → Str
  | .tcp .. => "tcp".toList
  | .udp .. => "udp".toList
  | .other n _ => n

/-- The `String()` of an address. -/
def NetAddr.text : NetAddr → Str
  | .tcp _ s => s
  | .udp _ s => s
  | .other _ s => s

/-- backend-http.go:357-366 `addr2ip`. -/
def addr2ip : NetAddr → Str
  | .tcp ip _ => ip
  | .udp ip _ => ip
  | .other .. => []

/-- What `expandVars` reads: the connection's addresses, its server name (after
`idnaToUnicode`), and the claims in the request's context (backend-sso.go:79-84
`claimsFromCtx`), each as `fmt.Sprint` prints it. -/
structure VarEnv where
  localAddr : NetAddr
  remoteAddr : NetAddr
  serverName : Str
  claims : Option (Str → Option Str) := none

/-- backend-http.go:372-394, the function given to `os.Expand`. -/
def varValue (e : VarEnv) (n : Str) : Str :=
  if n = "NETWORK".toList then e.localAddr.network
  else if n = "LOCAL_ADDR".toList then e.localAddr.text
  else if n = "REMOTE_ADDR".toList then e.remoteAddr.text
  else if n = "LOCAL_IP".toList then addr2ip e.localAddr
  else if n = "REMOTE_IP".toList then addr2ip e.remoteAddr
  else if n = "SERVER_NAME".toList then e.serverName
  else if "JWT:".toList.isPrefixOf n then
    match e.claims with
    | none => []
    | some f => (f (n.drop 4)).getD []
  else []

/-- backend-http.go:368-395 `expandVars`. -/
def expandVars (e : VarEnv) (s : Str) : Str := osExpand (varValue e) s

/-! ## The Host header -/

/-- backend-http.go:322-332, the effect on `req.Host`. Header names are canonical here, so that
comparing them in lower case is comparing them. -/
def setHost (c : Ctx) : List (String × String) → Str → Str
  | [], h => h
  | (k, v) :: t, h => setHost c t (if c.expand v ≠ [] ∧ k = "Host" then c.expand v else h)

/-- The Host header (`:authority` in HTTP/2 and HTTP/3) that the transport sends: `req.Host`, or
the URL's host if that is empty (net/http request.go `Request.write`, http2 and http3 the same);
the URL's host is the connection pool's name by then (backend-http.go:298-299). The "Host" entry
of the header map, which line 225 sets, is not sent (`reqWriteExcludeHeader`). -/
def sentHost (c : Ctx) (hdrs : List (String × String)) (r : Req) (pool : Str) : Str :=
  let h := setHost c hdrs r.host.toList
  if h = [] then pool else h

end Verif.Http
