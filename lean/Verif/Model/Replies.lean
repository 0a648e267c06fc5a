import Verif.Model.Http
import Verif.Model.Discovery
/-
The answers of backend servers, as the servers send them and as the clients get them
(proxy/backend-http.go:68-74, 194-206, 354, 466-545), with the parts of net/http that they pass through:
`http.Transport`, `httputil.ReverseProxy` and the server.

Left out: answers with status 1xx (101 is in `Verif.Model.WebSocket`), trailers, and clients with HTTP/1.0,
which cannot tell whether an answer without a length is complete. The body is what remains once net/http has
undone its framing. Content-Length is not among the headers but a field of its own.
-/
namespace Verif.Replies

open Verif.Path (Str)
open Verif.Http (Headers Ctx removeHop modifyResponse)
open Verif.Discovery (AltReq altSvcResponse)

/-- How requests are sent to the backend server (backend-http.go:472-521). -/
inductive Proto where
  | h1 | h2 | h3
deriving DecidableEq, Repr

/-- The request that is sent to the backend server. -/
structure Ask where
  proto : Proto
  method : String
  headers : Headers

/-- The answer of the backend server. `sent` is what has arrived of the body, and if there is no length,
`whole` tells whether its end has arrived too: the last chunk, the flag END_STREAM, or close_notify. -/
structure Answer where
  status : Nat
  headers : Headers
  length : Option Nat
  sent : List Nat
  whole : Bool

/-- Answers that have no body: net/http `bodyAllowedForStatus`, and answers to HEAD. -/
def bodyless (q : Ask) (a : Answer) : Bool := q.method = "HEAD" || a.status = 204 || a.status = 304

/-- What the transport reads. -/
def Answer.body (q : Ask) (a : Answer) : List Nat :=
  if bodyless q a then [] else match a.length with
    | some n => a.sent.take n
    | none => a.sent

/-- Reading ends with `io.EOF` and not with another error. -/
def Answer.ended (q : Ask) (a : Answer) : Bool :=
  bodyless q a || match a.length with
    | some n => n ≤ a.sent.length
    | none => a.whole

/-- What `http.Transport` returns: the answer, and whether reading its body ends well. -/
structure Resp where
  status : Nat
  headers : Headers
  length : Option Nat
  body : List Nat
  ok : Bool

/-- net/http transport.go: a transport without `DisableCompression` asks for gzip on its own. Only the one for
HTTP/1 is without it (backend-http.go:473-483, 488; quic.go:584). -/
def asksGzip (q : Ask) : Bool :=
  q.proto = .h1 && q.headers.get "Accept-Encoding" = [] && q.headers.get "Range" = [] && q.method ≠ "HEAD"

/-- Then it also decodes the answer. -/
def decodes (q : Ask) (a : Answer) : Bool :=
  asksGzip q && !bodyless q a && a.length ≠ some 0 &&
    (a.headers.get "Content-Encoding").map Char.toLower = "gzip".toList

/-- `RoundTrip` (backend-http.go:498-521). `gunzip` gives what can be decoded, and whether that is all. -/
def transport (gunzip : List Nat → List Nat × Bool) (q : Ask) (a : Answer) : Resp :=
  if decodes q a then
    let r := gunzip (a.body q)
    { status := a.status, headers := a.headers.del "Content-Encoding", length := none, body := r.1,
      ok := r.2 && a.ended q }
  else { status := a.status, headers := a.headers, length := a.length, body := a.body q, ok := a.ended q }

/-- backend-http.go:523-544 `reverseProxyModifyResponse`, without the log. -/
def modify (alt : AltReq) (status : Nat) (h : Headers) : Headers :=
  let h := modifyResponse status h
  let v := altSvcResponse alt status (h.get "Alt-Svc")
  if v = h.get "Alt-Svc" then h else h.set "Alt-Svc" v

/-- How a handler ends. -/
inductive Ran where
  | returned
  /-- with `panic(http.ErrAbortHandler)` -/
  | aborted
deriving DecidableEq, Repr

/-- `httputil.ReverseProxy`: if the body cannot be read to its end, it panics. -/
def copied (r : Resp) : Ran := if r.ok then .returned else .aborted

/-- backend-http.go:68-74, 201-206: the deferred function recovers from every panic and logs it. -/
def recovered (_ : Ran) : Ran := .returned

/-- What the client sees. `complete` tells whether it takes the answer for a complete one. -/
structure Seen where
  status : Nat
  headers : Headers
  length : Option Nat
  body : List Nat
  complete : Bool

/-- The server in net/http: when a handler has returned, the answer is ended; if less than the announced length
was written, the client notices. When a handler has panicked, the connection or stream is reset. -/
def finish (nobody : Bool) (length : Option Nat) (written : List Nat) (ran : Ran) : Bool :=
  match ran with
  | .aborted => false
  | .returned => nobody || match length with
    | some n => n = written.length
    | none => true

/-- backend-http.go:194-206, 354: the answer for the client. `pre` are headers that were set before, like cookies.
If no answer arrives, `ReverseProxy` makes one. -/
def reply (c : Ctx) (alt : AltReq) (gunzip : List Nat → List Nat × Bool) (pre : Headers) (q : Ask) :
    Option Answer → Seen
  | none => { status := 502, headers := pre, length := some 0, body := [], complete := true }
  | some a =>
    let r := transport gunzip q a
    { status := r.status, headers := pre ++ modify alt r.status (removeHop c r.headers), length := r.length,
      body := r.body, complete := finish (bodyless q a) r.length r.body (recovered (copied r)) }

end Verif.Replies
