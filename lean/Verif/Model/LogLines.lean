import Verif.Model.Redirect
import Verif.Model.OcspHttp
import Verif.Model.Http
/-
The messages that are logged about requests and connections: which pieces they are made of, which of
these come from the client, and how each one is formatted. Which messages are suppressed is in
`Verif.Model.Logging`. Each character is one byte of the Go string, but for the arrows of the formats.
Numbers and durations are left out of the formats or part of the fixed text.
-/
namespace Verif.LogLines

open Verif.Path (Str)
open Verif.Redirect (escape)
open Verif.OcspHttp (pathUnescape)

/-! ## URLs, as net/url reads and writes them -/

/-- A byte that net/url refuses everywhere (`stringContainsCTLByte`). -/
def ctl (c : Char) : Bool := c.toNat < 32 || c.toNat = 127

/-- The parts of a URL without scheme and host. -/
structure Url where
  path : Str
  rawPath : Str
  forceQuery : Bool
  rawQuery : Str
deriving DecidableEq, Repr

/-- `url.ParseRequestURI` for a target that begins with '/': `none` is an error, and the request is
answered with 400 by net/http. -/
def parseTarget (t : Str) : Option Url :=
  if t.any ctl then none
  else if t.head? ≠ some '/' then none
  else
    let p := t.takeWhile (· ≠ '?')
    let q := (t.dropWhile (· ≠ '?')).drop 1
    match pathUnescape p with
    | none => none
    | some path =>
      some { path := path, rawPath := if escape path = p then [] else p,
             forceQuery := q = [] && t.contains '?', rawQuery := q }

/-- net/url `validEncoded`: the bytes that may stand in an encoded path. -/
def validChar (c : Char) : Bool :=
  "!$&'()*+,;=:@[]%".toList.contains c || Redirect.keep c

/-- `URL.EscapedPath`. -/
def escapedPath (u : Url) : Str :=
  if u.rawPath ≠ [] ∧ u.rawPath.all validChar ∧ pathUnescape u.rawPath = some u.path then u.rawPath
  else escape u.path

/-- `URL.String` without scheme and host. -/
def urlString (u : Url) : Str :=
  escapedPath u ++ (if u.forceQuery ∨ u.rawQuery ≠ [] then '?' :: u.rawQuery else [])

/-! ## Formats -/

def hexDigit (n : Nat) : Char := if n < 10 then Char.ofNat (48 + n) else Char.ofNat (87 + n)

/-- One byte of a string formatted with `%q` (`strconv.Quote`). Bytes above
127 are kept: which of the characters they make are printable is left out. -/
def quoteChar (c : Char) : Str :=
  if c = '"' ∨ c = '\\' then ['\\', c]
  else if c.toNat = 7 then "\\a".toList
  else if c.toNat = 8 then "\\b".toList
  else if c.toNat = 12 then "\\f".toList
  else if c.toNat = 10 then "\\n".toList
  else if c.toNat = 13 then "\\r".toList
  else if c.toNat = 9 then "\\t".toList
  else if c.toNat = 11 then "\\v".toList
  else if ctl c then ['\\', 'x', hexDigit (c.toNat / 16), hexDigit (c.toNat % 16)]
  else [c]

/-- `%q`. -/
def quote (s : Str) : Str := '"' :: (s.flatMap quoteChar ++ ['"'])

/-- A piece of a message. -/
inductive Piece where
  /-- part of the format, or a value without text: a number, a duration, an address -/
  | fixed (s : Str)
  /-- `%s` or `%v` -/
  | plain (s : Str)
  /-- `%q` -/
  | quoted (s : Str)
deriving Repr

def Piece.text : Piece → Str
  | .fixed s => s
  | .plain s => s
  | .quoted s => quote s

def format (l : List Piece) : Str := l.flatMap Piece.text

/-- What `log.Printf` writes: the message after the time, with an end of line. -/
def record (stamp msg : Str) : Str := stamp ++ msg ++ (if msg.getLast? = some '\n' then [] else ['\n'])

/-! ## Requests -/

/-- What is known of a connection when something is logged about it. -/
structure Conn where
  /-- `certSummary` of the client's certificate (proxy.go:1542-1560) -/
  cert : Option Str
  remote : Str
  /-- of a PROXY header -/
  localAddr : Option Str
  /-- in Unicode; a configured name -/
  serverName : Str
  mode : Str
  proto : Str
  /-- `Upgrade` header of a backend server's answer -/
  upgrade : Str
  /-- local and remote address of the connection to the server -/
  internal : Option (Str × Str)
deriving Repr

structure Req where
  conn : Conn
  /-- the claim "email" of who has logged in; empty if it is missing -/
  email : Option Str
  method : Str
  /-- the request target, `req.RequestURI` -/
  target : Str
  url : Url
  userAgent : Str

/-- strings.Join(l, "|"). -/
def joinBar : List Str → Str
  | [] => []
  | [a] => a
  | a :: t => a ++ '|' :: joinBar t

/-- proxy.go:1446-1487 `formatConnDesc`. -/
def connDesc (c : Conn) (ids : List Str) : Str :=
  let identities := c.cert.toList ++ ids
  (if identities = [] then "[-] ".toList else '[' :: (joinBar identities ++ "] ".toList)) ++
  c.remote ++
  (match c.localAddr with
    | none => []
    | some a => " ➔ ".toList ++ a) ++
  (if c.serverName = [] then []
    else " ➔ ".toList ++ c.serverName ++ '|' :: c.mode ++
      (if c.proto = [] then [] else ':' :: c.proto) ++
      (if c.upgrade = [] then [] else '+' :: c.upgrade) ++
      (match c.internal with
        | none => []
        | some (a, b) => '|' :: a ++ " ➔ ".toList ++ b))

/-- proxy.go:1432-1444 `formatReqDesc`. -/
def reqDesc (r : Req) : Str := connDesc r.conn r.email.toList

/-- Bytes 0-196 and three dots of a long one (http.go:104-110). -/
def userAgent (ua : Str) : Str := if ua.length > 200 then ua.take 197 ++ "...".toList else ua

/-- Where a message about a request is logged. -/
inductive Site where
  /-- backend-http.go:70 -/
  | aborted
  /-- backend-http.go:104, 136, 168, 183, 187: redirects and static files -/
  | static (code : Str)
  /-- backend-http.go:124 -/
  | notFound
  /-- backend-http.go:239, 534-535; the status and perhaps the length -/
  | forwarded (code : Str)
  /-- backend-sso.go:288, 308, 312, 336 -/
  | sso (code : Str)
  /-- http.go:112-119 -/
  | handler
  /-- proxy.go:765 -/
  | callback
deriving Repr

def reqMessage (s : Site) (r : Req) : Str :=
  let arrow := Piece.fixed " ➔ ".toList
  let agent := [Piece.fixed " (".toList, Piece.quoted (userAgent r.userAgent), Piece.fixed ")".toList]
  let start (tag : String) (what : Str) := [Piece.fixed tag.toList, .plain (reqDesc r), arrow, .plain r.method,
    .fixed [' '], .plain what]
  match s with
  | .aborted => format (start "ERR " (urlString r.url) ++ [.fixed " ➔ Aborted".toList] ++ agent)
  | .static code => format (start "REQ " r.url.path ++ [.fixed " ➔ status:".toList, .fixed code] ++ agent)
  | .notFound => format (start "REQ " (urlString r.url) ++ [.fixed " ➔ status:404".toList] ++ agent)
  | .forwarded code => format (start "PRX " (urlString r.url) ++ [.fixed " ➔ status:".toList, .fixed code] ++ agent)
  | .sso code =>
    format (start "REQ " r.target ++ [.fixed " ➔ status:".toList, .fixed code, .fixed " (SSO)".toList] ++ agent)
  | .handler => format (start "REQ " (urlString r.url) ++ agent)
  | .callback => format (start "REQ " r.url.path ++ [.fixed " (SSO callback)".toList] ++ agent)

/-- The message about an answer of `serveStaticFiles` (backend-http.go:104, 122-190). -/
def staticSite (method : String) : Verif.Http.StaticRes → Site
  | .notFound => .notFound
  | .methodNotAllowed => .static "405".toList
  | .redirect _ => .static (if method = "GET" ∨ method = "HEAD" then "301".toList else "303".toList)
  | .forbidden => .static "403".toList
  | .served _ => .static "200".toList

/-! ## Connections -/

/-- Messages about connections. `err` stands for an error whose text comes from the proxy and its
libraries only. -/
inductive ConnSite where
  /-- proxy.go:1165: the name may be anything -/
  | badHello (remote sni err : Str)
  /-- proxy.go:1178 -/
  | noBackend (remote sni err : Str)
  /-- proxy.go:1225, 1239, 1260, 1267, 1298, 1327, 1339: the tag is in the text of the error -/
  | refused (remote name err : Str)
  /-- proxy.go:1282 -/
  | unauthorized (remote name summary err : Str)
  /-- proxy.go:1315, 1347, 1387; 1147, 1358, 1397 (`END` with numbers); quic.go:135, 372-461 -/
  | about (tag : Str) (c : Conn) (rest : Str)
  /-- quic.go:82: no backend for the name and protocols -/
  | quicNoBackend (sni : Str) (protos : List Str)
  /-- quic.go:161, 171, 181, 190 -/
  | quicRefused (summary remote sni err : Str)
  /-- quic.go:186 -/
  | quicAccepted (summary remote name mode proto : Str)
  /-- quic.go:196-208 with an `ApplicationError` of the peer, whose text ends with the peer's reason -/
  | quicClosed (summary remote name mode proto tag reason : Str)
deriving Repr

/-- `%s` of a list of strings. -/
def listText (l : List Str) : Str := '[' :: ((l.intersperse [' ']).flatten ++ [']'])

def connMessage : ConnSite → Str
  | .badHello remote sni err =>
    format [.fixed "BAD [-] ".toList, .fixed remote, .fixed " ➔ ".toList, .quoted sni,
      .fixed ": invalid ClientHello: ".toList, .plain err]
  | .noBackend remote sni err =>
    format [.fixed "BAD [-] ".toList, .fixed remote, .fixed " ➔ ".toList, .quoted sni, .fixed ": ".toList, .plain err]
  | .refused remote name err =>
    format [.fixed "BAD [-] ".toList, .fixed remote, .fixed " ➔ ".toList, .quoted name, .fixed " ".toList, .plain err]
  | .unauthorized remote name summary err =>
    format [.fixed "BAD [-] ".toList, .fixed remote, .fixed " ➔ ".toList, .quoted name, .fixed " Authorize(".toList,
      .quoted summary, .fixed "): ".toList, .plain err]
  | .about tag c rest => format [.fixed tag, .fixed [' '], .plain (connDesc c []), .fixed rest]
  | .quicNoBackend sni protos =>
    format [.fixed "ERR QUIC connection ".toList, .plain sni, .fixed [' '], .plain (listText protos)]
  | .quicRefused summary remote sni err =>
    format [.fixed "BAD [".toList, .plain summary, .fixed "] ".toList, .fixed remote, .fixed " ➔ ".toList, .quoted sni,
      .fixed ": ".toList, .plain err]
  | .quicAccepted summary remote name mode proto =>
    format [.fixed "QUC [".toList, .plain summary, .fixed "] ".toList, .fixed remote, .fixed " ➔ ".toList, .plain name,
      .fixed ['|'], .plain mode, .fixed [':'], .plain proto]
  | .quicClosed summary remote name mode proto tag reason =>
    format [.fixed "ERR [".toList, .plain summary, .fixed "] ".toList, .fixed remote, .fixed " ➔ ".toList, .plain name,
      .fixed ['|'], .plain mode, .fixed [':'], .plain proto, .fixed [' '], .fixed tag,
      .fixed ": Application error (remote): ".toList, .plain reason]

end Verif.LogLines
