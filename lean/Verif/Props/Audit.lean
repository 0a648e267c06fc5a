import Verif.Model.Audit
import Verif.Props.LogLines
import Verif.Props.Handlers
/-
C156: every request leaves its line in the log. C157: secrets stay out of the log.
-/
namespace Verif.Audit

open Verif.Path (Str)
open Verif.LogLines (Site reqMessage)

/-! ## Specification -/

namespace Spec

/-- The requests that leave no line: the ones that are redirected to themselves with a new ID token, answered with an
internal error, not for this backend, going in circles, in need of a login whose token cannot be made, for a page of the
profiler, and the ones whose server does not answer. -/
def Silent (w : World) (r : Http.Req) : Http.Out → Prop
  | .setID | .error500 | .misdirected | .loop => True
  | .login => r.method = "GET" ∧ w.tokenOK = false
  | .endpoint h => ∃ p, w.kind h.id = .pprof p
  | .forward .. => w.fate = .failed
  | .redirect _ | .denied | .static .. => False

/-- The requests that leave two: the answer of the server does not reach the client. -/
def Twice (w : World) : Http.Out → Prop
  | .forward .. => ∃ s, w.fate = .answered s true
  | _ => False

/-- Two requests take the same way: they come to the same kind of end. -/
inductive SameWay : Http.Out → Http.Out → Prop
  | redirect {p q} : SameWay (.redirect p) (.redirect q)
  | setID : SameWay .setID .setID
  | error500 : SameWay .error500 .error500
  | login : SameWay .login .login
  | denied : SameWay .denied .denied
  | endpoint {h g : Http.Handler} : h.id = g.id → SameWay (.endpoint h) (.endpoint g)
  | notFound {a b} : SameWay (.static .notFound a) (.static .notFound b)
  | methodNotAllowed {a b} : SameWay (.static .methodNotAllowed a) (.static .methodNotAllowed b)
  | staticRedirect {p q a b} : SameWay (.static (.redirect p) a) (.static (.redirect q) b)
  | forbidden {a b} : SameWay (.static .forbidden a) (.static .forbidden b)
  | served {f g a b} : SameWay (.static (.served f) a) (.static (.served g) b)
  | misdirected : SameWay .misdirected .misdirected
  | loop : SameWay .loop .loop
  | forward {p q h g c d o m k l} : SameWay (.forward p h c o k) (.forward q g d m l)

/-- The ends where only the path is logged: redirects, files, callbacks of logins. -/
def PathOnly (w : World) : Http.Out → Prop
  | .redirect _ => True
  | .static .notFound _ => False
  | .static _ _ => True
  | .endpoint h => ∃ n, w.kind h.id = .callback n
  | _ => False

/-- Who a request is from: the certificate of the client and the address of the user. -/
def from_ (c : Http.Ctx) (be : Http.Be) (r : Req) : List Str :=
  r.conn.cert.toList ++
    match Http.authenticate c be r.http with
    | .ok ⟨_, some cl⟩ => [cl.email.getD []]
    | _ => []

/-- `x` occurs in `s`. -/
def Occurs (x s : Str) : Prop := ∃ a b, s = a ++ x ++ b

end Spec

open Spec

/-! ## C156 -/

theorem loginSites_nil (w : World) (r : Http.Req) :
    (loginSites w r = [] ↔ r.method = "GET" ∧ w.tokenOK = false) ∧ (loginSites w r).length ≤ 1 := by
  unfold loginSites
  by_cases hm : r.method = "GET"
  · rw [if_neg (fun hn => hn hm)]
    cases ht : w.tokenOK with
    | false => simp [hm]
    | true =>
      rw [if_neg (by simp)]
      split <;> simp
  · rw [if_pos hm]
    simp [hm]

theorem endpointSites_nil (k : Endpoints.Kind) :
    (endpointSites k = [] ↔ ∃ p, k = .pprof p) ∧ (endpointSites k).length ≤ 1 := by
  cases k <;> simp [endpointSites]

theorem sites_length (w : World) (r : Http.Req) (o : Http.Out) :
    (sites w r o = [] ↔ Silent w r o) ∧ ((sites w r o).length = 2 ↔ Twice w o) ∧ (sites w r o).length ≤ 2 := by
  have small : ∀ {l : List Site}, l.length ≤ 1 → l.length ≠ 2 ∧ l.length ≤ 2 := by intros; omega
  cases o with
  | login =>
    obtain ⟨h1, h2⟩ := loginSites_nil w r
    exact ⟨h1, ⟨fun hh => absurd hh (small h2).1, fun hh => hh.elim⟩, (small h2).2⟩
  | endpoint h =>
    obtain ⟨h1, h2⟩ := endpointSites_nil (w.kind h.id)
    exact ⟨h1, ⟨fun hh => absurd hh (small h2).1, fun hh => hh.elim⟩, (small h2).2⟩
  | forward =>
    show (forwardSites w.fate = [] ↔ w.fate = .failed) ∧
      ((forwardSites w.fate).length = 2 ↔ ∃ s, w.fate = .answered s true) ∧ (forwardSites w.fate).length ≤ 2
    cases w.fate with
    | failed => simp [forwardSites]
    | answered s a => cases a <;> simp [forwardSites]
  | _ => simp [sites, Silent, Twice]

/-- C156 (partial). A request leaves exactly one line unless it is one of the silent ones, or the copying of its answer
is aborted, which is logged as well. Missing: the silent ones (`unlogged_violated`). -/
theorem one_line_partial (w : World) (c : Http.Ctx) (be : Http.Be) (r : Req) :
    (messages w c be r = [] ↔ Silent w r.http (Http.serve c be r.http)) ∧
    ((messages w c be r).length = 1 ↔
      ¬ Silent w r.http (Http.serve c be r.http) ∧ ¬ Twice w (Http.serve c be r.http)) := by
  obtain ⟨h1, h2, h3⟩ := sites_length w r.http (Http.serve c be r.http)
  unfold messages
  rw [List.map_eq_nil_iff, List.length_map, ← h1, ← h2, ← List.length_eq_zero_iff]
  exact ⟨Iff.rfl, by omega⟩

/-- C156 (violated). Requests for other hosts are answered with 421 and leave no line, whatever they are: who looks for
names behind a certificate is not seen. The same holds for the ones that a server does not answer. -/
theorem unlogged_violated (w : World) (c : Http.Ctx) (be : Http.Be) (r : Req) (hb : be.reverse = true)
    (hs : be.sso = none) (hh : be.handlers = []) (ho : r.http.host ≠ "")
    (hn : c.hostname r.http.host ∉ be.serverNames) :
    messages w c be r = [] ∧ status w r.http (Http.serve c be r.http) = some "421".toList := by
  have h1 : Http.authenticate c be r.http = .ok ⟨r.http.headers.del Http.uidHeader, none⟩ := by
    unfold Http.authenticate
    rw [hs]
  have h2 : Http.localEndpoints c be r.http none = .ok r.http.cookies := by
    unfold Http.localEndpoints Http.enforce
    rw [hs, hh]
    simp
  have h3 : Http.serve c be r.http = .misdirected := by
    unfold Http.serve
    rw [h1]
    dsimp only
    rw [h2]
    dsimp only
    rw [if_pos hb]
    unfold Http.reverseProxy
    dsimp only
    rw [if_neg ho, if_pos hn]
  rw [h3]
  refine ⟨?_, rfl⟩
  rw [(one_line_partial w c be r).1, h3]
  exact trivial

theorem failed_unlogged_violated (w : World) (hw : w.fate = .failed) (c : Http.Ctx) (be : Http.Be) (r : Req)
    {p h k o q} (hs : Http.serve c be r.http = .forward p h k o q) :
    messages w c be r = [] ∧ status w r.http (Http.serve c be r.http) = some "502".toList := by
  rw [hs]
  refine ⟨?_, ?_⟩
  · rw [(one_line_partial w c be r).1, hs]
    exact hw
  · show (match w.fate with | .failed => _ | .answered s _ => some s) = _
    rw [hw]

/-- C156 (violated). A login whose token cannot be made is answered with an internal error and leaves no line. -/
theorem login_unlogged_violated (w : World) (hw : w.tokenOK = false) (c : Http.Ctx) (be : Http.Be) (r : Req)
    (hm : r.http.method = "GET") (hs : Http.serve c be r.http = .login) :
    messages w c be r = [] ∧ status w r.http (Http.serve c be r.http) = some "500".toList := by
  rw [hs]
  refine ⟨?_, ?_⟩
  · rw [(one_line_partial w c be r).1, hs]
    exact ⟨hm, hw⟩
  · show some (loginStatus w r.http) = _
    unfold loginStatus
    rw [if_neg (not_not_intro hm), if_pos (by simp [hw])]

/-- C156 (violated). Nor is there a line about the other answers that the proxy gives itself: the redirect that sets the
identifier of a session, internal errors, and requests that come back to the proxy. -/
theorem own_unlogged_violated (w : World) (c : Http.Ctx) (be : Http.Be) (r : Req) :
    (Http.serve c be r.http = .setID →
      messages w c be r = [] ∧ status w r.http (Http.serve c be r.http) = some "302".toList) ∧
    (Http.serve c be r.http = .error500 →
      messages w c be r = [] ∧ status w r.http (Http.serve c be r.http) = some "500".toList) ∧
    (Http.serve c be r.http = .loop →
      messages w c be r = [] ∧ status w r.http (Http.serve c be r.http) = some "508".toList) := by
  refine ⟨fun hs => ?_, fun hs => ?_, fun hs => ?_⟩ <;>
  · rw [hs]
    refine ⟨?_, rfl⟩
    rw [(one_line_partial w c be r).1, hs]
    exact trivial

/-- The beginning of every message. -/
theorem message_start (s : Site) (q : LogLines.Req) :
    ∃ tag rest, (tag = "REQ ".toList ∨ tag = "PRX ".toList ∨ tag = "ERR ".toList) ∧
      reqMessage s q = tag ++ (LogLines.reqDesc q ++ (" ➔ ".toList ++ (q.method ++ ' ' :: rest))) := by
  unfold reqMessage
  cases s <;> dsimp only <;>
    refine ⟨_, _, ?_, by
      simp only [LogLines.format, LogLines.Piece.text, List.flatMap_cons, List.flatMap_nil, List.cons_append, List.nil_append, List.append_nil]; rfl⟩ <;> simp

theorem email_from (c : Http.Ctx) (be : Http.Be) (r : Req) :
    r.conn.cert.toList ++ (email c be r.http).toList = from_ c be r := by
  unfold email from_
  cases Http.authenticate c be r.http with
  | error => rfl
  | ok a =>
    obtain ⟨h, cl⟩ := a
    cases cl <;> rfl

/-- C156 (attribution). Every line about a request tells who it is from - the certificate of the client and the user
that the request was authenticated as - from which address, and which method was used. -/
theorem line_names (w : World) (c : Http.Ctx) (be : Http.Be) (r : Req) (m : Str) (hm : m ∈ messages w c be r)
    (hid : ∀ s ∈ from_ c be r, ']' ∉ s ∧ '|' ∉ s) (hbar : from_ c be r ≠ [['-']]) (hr : ' ' ∉ r.conn.remote) :
    ∃ tag desc rest, m = tag ++ (desc ++ (" ➔ ".toList ++ (r.http.method.toList ++ ' ' :: rest))) ∧ tag.length = 4 ∧
      LogLines.Spec.who desc = from_ c be r ∧ LogLines.Spec.peer desc = r.conn.remote := by
  unfold messages at hm
  obtain ⟨s, -, rfl⟩ := List.mem_map.1 hm
  obtain ⟨tag, rest, ht, he⟩ := message_start s (shown c be r)
  have e := email_from c be r
  rw [← e] at hid hbar ⊢
  obtain ⟨h1, h2⟩ := LogLines.attributed r.conn (email c be r.http).toList hid hbar hr
  refine ⟨tag, LogLines.reqDesc (shown c be r), rest, he, ?_, h1, h2⟩
  rcases ht with rfl | rfl | rfl <;> decide

/-- C156 (refusals). Whoever the access list refuses is named in a line that says so. -/
theorem refusal_logged (w : World) (c : Http.Ctx) (be : Http.Be) (r : Req) (h : Http.serve c be r.http = .denied) :
    ∃ m a b, messages w c be r = [m] ∧ m = a ++ (r.target ++ " ➔ status:403 (SSO)".toList) ++ b := by
  refine ⟨reqMessage (.sso "403".toList) (shown c be r), ?_⟩
  have e : ∃ a b, reqMessage (.sso "403".toList) (shown c be r) =
      a ++ (r.target ++ " ➔ status:403 (SSO)".toList) ++ b := by
    refine ⟨"REQ ".toList ++ (LogLines.reqDesc (shown c be r) ++ (" ➔ ".toList ++ (r.http.method.toList ++ [' ']))),
      " (".toList ++ (LogLines.quote (LogLines.userAgent (r.http.headers.get "User-Agent")) ++ ")".toList), ?_⟩
    have hc : " ➔ status:403 (SSO)".toList = " ➔ status:".toList ++ ("403".toList ++ " (SSO)".toList) := by decide
    rw [hc]
    simp only [reqMessage, LogLines.format, LogLines.Piece.text, List.flatMap_append, List.flatMap_cons,
      List.flatMap_nil, List.append_assoc, List.append_nil]
    rfl
  obtain ⟨a, b, hab⟩ := e
  refine ⟨a, b, ?_, hab⟩
  unfold messages
  rw [h]
  rfl

/-- The status a message tells. -/
def Spec.told : Site → Option Str
  | .static code | .forwarded code | .sso code => some code
  | .notFound => some "404".toList
  | .aborted | .handler | .callback => none

/-- C156 (status). A line tells the status that the client gets, if it tells one: all but the ones of endpoints and of
aborted answers do. -/
theorem told_status (w : World) (r : Http.Req) (o : Http.Out) (s : Site) (hs : s ∈ sites w r o) :
    (told s = status w r o ∧ (told s = none → ∃ h, o = .endpoint h)) ∨ s = .aborted := by
  cases o with
  | redirect p =>
    obtain rfl := List.mem_singleton.1 hs
    left
    unfold redirectSite told status
    refine ⟨?_, fun h => (nomatch h)⟩
    by_cases h1 : r.method = "GET" <;> by_cases h2 : r.method = "HEAD" <;> simp [h1, h2]
  | setID => cases hs
  | error500 => cases hs
  | misdirected => cases hs
  | loop => cases hs
  | denied =>
    obtain rfl := List.mem_singleton.1 hs
    exact .inl ⟨rfl, fun h => (nomatch h)⟩
  | login =>
    left
    have hs : s ∈ loginSites w r := hs
    show told s = some (loginStatus w r) ∧ _
    unfold loginSites at hs
    unfold loginStatus
    split at hs
    · rename_i h1
      obtain rfl := List.mem_singleton.1 hs
      rw [if_pos h1]
      exact ⟨rfl, fun h => (nomatch h)⟩
    · rename_i h1
      rw [if_neg h1]
      split at hs
      · cases hs
      · rename_i h2
        rw [if_neg h2]
        split at hs <;> rename_i h3 <;> obtain rfl := List.mem_singleton.1 hs
        · rw [if_pos h3]
          exact ⟨rfl, fun h => (nomatch h)⟩
        · rw [if_neg h3]
          exact ⟨rfl, fun h => (nomatch h)⟩
  | endpoint h =>
    left
    have hs : s ∈ endpointSites (w.kind h.id) := hs
    have : told s = none := by
      unfold endpointSites at hs
      split at hs <;> first | (cases hs; done) | (obtain rfl := List.mem_singleton.1 hs; rfl)
    exact ⟨this, fun _ => ⟨h, rfl⟩⟩
  | static t l =>
    left
    obtain rfl := List.mem_singleton.1 hs
    cases t with
    | redirect p =>
      show told (.static _) = some (if _ then _ else _) ∧ _
      exact ⟨rfl, fun h => (nomatch h)⟩
    | _ => exact ⟨rfl, fun h => (nomatch h)⟩
  | forward p h k o q =>
    have hs : s ∈ forwardSites w.fate := hs
    show (told s = (match w.fate with | .failed => some "502".toList | .answered s _ => some s) ∧ _) ∨ _
    cases hf : w.fate with
    | failed => rw [hf] at hs; cases hs
    | answered t a =>
      rw [hf] at hs
      rcases List.mem_cons.1 hs with rfl | hs
      · exact .inl ⟨rfl, fun h => (nomatch h)⟩
      · right
        split at hs
        · exact List.mem_singleton.1 hs
        · cases hs

/-! ## C157 -/

theorem sites_way {w : World} {r r' : Http.Req} (hm : r.method = r'.method)
    (hk : r.headers.get "X-Skip-Login-Confirmation" = r'.headers.get "X-Skip-Login-Confirmation") {o o' : Http.Out}
    (h : SameWay o o') : sites w r o = sites w r' o' := by
  cases h with
  | redirect => exact congrArg (fun m => [redirectSite m]) hm
  | login =>
    show loginSites w r = loginSites w r'
    unfold loginSites
    rw [hm, hk]
  | endpoint h => exact congrArg (fun i => endpointSites (w.kind i)) h
  | staticRedirect =>
    show [Site.static _] = [Site.static _]
    rw [hm]
  | _ => rfl

/-- C157 (partial). What is logged about a request depends on its line, its User-Agent, the connection, the address of
the user and the way it takes: cookies, credentials, other headers and the body do not show. Missing: the request line
itself (`query_logged_violated`), and sessions (`session_logged_violated`). -/
theorem blind_partial (w : World) (c : Http.Ctx) (be : Http.Be) (r r' : Req) (hc : r.conn = r'.conn)
    (ht : r.target = r'.target) (hu : r.url = r'.url) (hm : r.http.method = r'.http.method)
    (ha : r.http.headers.get "User-Agent" = r'.http.headers.get "User-Agent")
    (hk : r.http.headers.get "X-Skip-Login-Confirmation" = r'.http.headers.get "X-Skip-Login-Confirmation")
    (he : from_ c be r = from_ c be r') (hw : SameWay (Http.serve c be r.http) (Http.serve c be r'.http)) :
    messages w c be r = messages w c be r' := by
  have hem : email c be r.http = email c be r'.http := by
    have := (email_from c be r).trans (he.trans (email_from c be r').symm)
    rw [hc] at this
    have := List.append_cancel_left this
    revert this
    cases email c be r.http <;> cases email c be r'.http <;> simp
  have hq : shown c be r = shown c be r' := by
    unfold shown
    rw [hc, hem, hm, ht, hu, ha]
  unfold messages
  rw [sites_way hm hk hw, hq]

theorem message_path {s : Site} (h : (∃ code, s = .static code) ∨ s = .callback) (q : LogLines.Req) (t : Str)
    (u : LogLines.Url) (hu : u.path = q.url.path) : reqMessage s { q with target := t, url := u } = reqMessage s q := by
  rcases h with ⟨code, rfl⟩ | rfl
  · show LogLines.format _ = LogLines.format _
    rw [hu]
    rfl
  · show LogLines.format _ = LogLines.format _
    rw [hu]
    rfl

theorem path_only_site {w : World} {r : Http.Req} {o : Http.Out} (h : PathOnly w o) {s : Site} (hs : s ∈ sites w r o) :
    (∃ code, s = .static code) ∨ s = .callback := by
  cases o with
  | redirect p => obtain rfl := List.mem_singleton.1 hs; exact .inl ⟨_, rfl⟩
  | static t l =>
    cases t with
    | notFound => exact h.elim
    | _ => obtain rfl := List.mem_singleton.1 hs; exact .inl ⟨_, rfl⟩
  | endpoint g =>
    obtain ⟨n, hn⟩ := h
    have hs : s ∈ endpointSites (w.kind g.id) := hs
    rw [hn] at hs
    exact .inr (List.mem_singleton.1 hs)
  | _ => exact h.elim

/-- C157 (partial, parameters). Where the proxy only shows the path - at redirects, files that exist, and callbacks of
logins, whose parameters are codes and assertions - the parameters of the URL do not show. -/
theorem query_hidden_partial (w : World) (c : Http.Ctx) (be : Http.Be) (r : Req)
    (h : PathOnly w (Http.serve c be r.http)) (t : Str) (u : LogLines.Url) (hu : u.path = r.url.path) :
    messages w c be { r with target := t, url := u } = messages w c be r := by
  unfold messages
  exact List.map_congr_left fun s hs => message_path (path_only_site h hs) (shown c be r) t u hu

theorem format_occurs {l : List LogLines.Piece} {x y : Str} (h : LogLines.Piece.plain y ∈ l) (hx : Occurs x y) :
    Occurs x (LogLines.format l) := by
  obtain ⟨a, b, e⟩ := LogLines.format_has h
  obtain ⟨a', b', rfl⟩ := hx
  exact ⟨a ++ a', b' ++ b, by rw [e]; simp⟩

theorem query_in_url (u : LogLines.Url) : Occurs u.rawQuery (LogLines.urlString u) := by
  unfold LogLines.urlString
  by_cases h : u.forceQuery ∨ u.rawQuery ≠ []
  · rw [if_pos h]
    exact ⟨LogLines.escapedPath u ++ ['?'], [], by simp⟩
  · rw [if_neg h]
    have : u.rawQuery = [] := Classical.not_not.1 fun hn => h (.inr hn)
    rw [this]
    exact ⟨LogLines.escapedPath u, [], by simp⟩

theorem query_in_target {t : Str} {u : LogLines.Url} (h : LogLines.parseTarget t = some u) : Occurs u.rawQuery t := by
  unfold LogLines.parseTarget at h
  split at h
  · cases h
  · split at h
    · cases h
    · dsimp only at h
      split at h
      · cases h
      · cases h
        refine ⟨t.takeWhile (· ≠ '?') ++ (t.dropWhile (· ≠ '?')).take 1, [], ?_⟩
        rw [List.append_nil, List.append_assoc, List.take_append_drop, List.takeWhile_append_dropWhile]

/-- C157 (violated). Everywhere else they do show, as they are: in the lines about endpoints - the tokens of
"/.sso/login?redirect=" and "/.sso/logout?u=" -, about logins that are needed, refusals, missing files and what servers
answered. -/
theorem query_logged_violated (w : World) (c : Http.Ctx) (be : Http.Be) (r : Req)
    (hu : LogLines.parseTarget r.target = some r.url) (h : ¬ PathOnly w (Http.serve c be r.http)) :
    ∀ m ∈ messages w c be r, Occurs r.url.rawQuery m := by
  intro m hm
  unfold messages at hm
  obtain ⟨s, hs, rfl⟩ := List.mem_map.1 hm
  have h1 := query_in_url r.url
  have h2 := query_in_target hu
  have big : s ≠ .callback → (∀ code, s ≠ .static code) → Occurs r.url.rawQuery (reqMessage s (shown c be r)) := by
    intro n1 n2
    cases s with
    | callback => exact absurd rfl n1
    | static code => exact absurd rfl (n2 code)
    | sso code =>
      refine format_occurs (y := r.target) ?_ h2
      simp [shown]
    | _ =>
      refine format_occurs (y := LogLines.urlString r.url) ?_ h1
      simp [shown]
  generalize Http.serve c be r.http = o at hs h
  cases o with
  | redirect p => exact absurd trivial h
  | setID => cases hs
  | error500 => cases hs
  | misdirected => cases hs
  | loop => cases hs
  | denied =>
    obtain rfl := List.mem_singleton.1 hs
    exact big (fun h => (nomatch h)) fun _ h => (nomatch h)
  | login =>
    have hs : s ∈ loginSites w r.http := hs
    unfold loginSites at hs
    split at hs
    · obtain rfl := List.mem_singleton.1 hs
      exact big (fun h => (nomatch h)) fun _ h => (nomatch h)
    · split at hs
      · cases hs
      · split at hs <;> obtain rfl := List.mem_singleton.1 hs <;>
          exact big (fun h => (nomatch h)) fun _ h => (nomatch h)
  | endpoint g =>
    have hs : s ∈ endpointSites (w.kind g.id) := hs
    unfold endpointSites at hs
    split at hs
    · rename_i n hn
      exact absurd ⟨n, hn⟩ h
    · cases hs
    · obtain rfl := List.mem_singleton.1 hs
      exact big (fun h => (nomatch h)) fun _ h => (nomatch h)
  | static t l =>
    cases t with
    | notFound =>
      obtain rfl := List.mem_singleton.1 hs
      exact big (fun h => (nomatch h)) fun _ h => (nomatch h)
    | _ => exact absurd trivial h
  | forward =>
    have hs : s ∈ forwardSites w.fate := hs
    cases hf : w.fate with
    | failed => rw [hf] at hs; cases hs
    | answered t a =>
      rw [hf] at hs
      rcases List.mem_cons.1 hs with rfl | hs
      · exact big (fun h => (nomatch h)) fun _ h => (nomatch h)
      · split at hs
        · obtain rfl := List.mem_singleton.1 hs
          exact big (fun h => (nomatch h)) fun _ h => (nomatch h)
        · cases hs

/-- C157 (violated, sessions). When a token made for one session is used in another, the identifiers of both are logged,
so that they can be read from the line: they are the values of the session cookies of two browsers. -/
theorem session_logged_violated (issued : List Token.Claims) (cookie : Option Str) (fresh : Str) (now : Nat)
    (tok c : Token.Claims) (sid : Str) (hv : Token.validate issued now tok = some c)
    (hs : Token.get c "sid" = some (.str sid)) (hn : sid ≠ Token.sessionID cookie fresh) :
    ∃ m rest, sessionMessage issued cookie fresh now tok = some ("ERR session ID mismatch ".toList ++ m) ∧
      LogLines.Spec.readString m = some (Token.sessionID cookie fresh, " != ".toList ++ rest) ∧
      LogLines.Spec.readString rest = some (sid, []) := by
  refine ⟨_, LogLines.quote sid, ?_, LogLines.quote_read _ _, ?_⟩
  · unfold sessionMessage
    rw [hv]
    dsimp only
    rw [hs, if_pos (fun e => hn (Token.Val.str.inj (Option.some.inj e)))]
    simp [claimText]
  · have := LogLines.quote_read sid []
    rwa [List.append_nil] at this

/-- C157 (sessions). When the token was made for no session, the line has the one of the browser and nothing else. -/
theorem session_missing (issued : List Token.Claims) (cookie : Option Str) (fresh : Str) (now : Nat)
    (tok c : Token.Claims) (hv : Token.validate issued now tok = some c) (hs : Token.get c "sid" = none) :
    ∃ m, sessionMessage issued cookie fresh now tok = some ("ERR session ID mismatch ".toList ++ m) ∧
      LogLines.Spec.readString m = some (Token.sessionID cookie fresh, " != %!q(<nil>)".toList) := by
  refine ⟨_, ?_, LogLines.quote_read _ _⟩
  unfold sessionMessage
  rw [hv]
  dsimp only
  rw [hs, if_pos (fun e => by cases e)]
  have : " != %!q(<nil>)".toList = " != ".toList ++ "%!q(<nil>)".toList := by decide +kernel
  rw [this]
  simp [claimText]

/-- C157 (sessions, the rest). Nothing is logged about tokens that are not valid, nor about ones of the session. -/
theorem session_quiet (issued : List Token.Claims) (cookie : Option Str) (fresh : Str) (now : Nat) (tok : Token.Claims) :
    sessionMessage issued cookie fresh now tok = none ↔
      ∀ c, Token.validate issued now tok = some c → Token.get c "sid" = some (.str (Token.sessionID cookie fresh)) := by
  unfold sessionMessage
  cases Token.validate issued now tok with
  | none => simp
  | some c => by_cases h : Token.get c "sid" = some (.str (Token.sessionID cookie fresh)) <;> simp [h]

/-! ## Examples -/

namespace Ex

def conn : LogLines.Conn where
  cert := none
  remote := "tcp:192.0.2.1:1234".toList
  localAddr := none
  serverName := "example.com".toList
  mode := "HTTPS".toList
  proto := "h2".toList
  upgrade := []
  internal := none

/-- Endpoint 0 is the login page, 1 a callback, 2 a page of the profiler. -/
def world (fate : Fate) : World where
  kind := fun n => if n = 0 then .ssoLogin else if n = 1 then .callback "idp" else .pprof "index"
  fate := fate

def be : Http.Be where
  serverNames := ["example.com"]
  addresses := ["192.0.2.9:443"]

/-- Only Bob may use it. -/
def ssoBe : Http.Be where
  serverNames := ["example.com"]
  addresses := ["192.0.2.9:443"]
  sso := some { paths := ["/".toList], acl := some ["bob@example.com".toList] }
  handlers := [{ path := "/.sso/login".toList, bypass := true, id := 0 },
    { host := "login.example.com", path := "/cb".toList, bypass := true, id := 1 },
    { path := "/debug/pprof".toList, bypass := true, matchPrefix := true, id := 2 }]

def req (host path query : String) (creds : Http.Creds := {}) : Req where
  http := { host := host, path := path.toList, creds := creds }
  conn := conn
  target := (path ++ "?" ++ query).toList
  url := ⟨path.toList, [], false, query.toList⟩

def as (email : String) : Http.Creds := { authCookie := some { email := some email.toList } }

end Ex

/-- A request that is answered by the server, one that is not, one that is aborted, and one for another host. -/
example :
    (messages (Ex.world (.answered "200".toList false)) {} Ex.be (Ex.req "example.com" "/a" "b=c")).map String.ofList =
      ["PRX [-] tcp:192.0.2.1:1234 ➔ example.com|HTTPS:h2 ➔ GET /a?b=c ➔ status:200 (\"\")"] ∧
    messages (Ex.world .failed) {} Ex.be (Ex.req "example.com" "/a" "b=c") = [] ∧
    (messages (Ex.world (.answered "200".toList true)) {} Ex.be (Ex.req "example.com" "/a" "b=c")).length = 2 ∧
    messages (Ex.world (.answered "200".toList false)) {} Ex.be (Ex.req "other.example" "/a" "b=c") = [] := by
  decide +kernel

example : messages (Ex.world .failed) {} Ex.be (Ex.req "other.example" "/a" "b=c") = [] :=
  (unlogged_violated _ _ _ _ rfl rfl rfl (by decide) (by decide +kernel)).1

/-- Mallory is refused, and named. -/
example :
    (messages (Ex.world .failed) {} Ex.ssoBe (Ex.req "example.com" "/a" "b=c" (Ex.as "mallory@example.com"))).map
      String.ofList =
      ["REQ [mallory@example.com] tcp:192.0.2.1:1234 ➔ example.com|HTTPS:h2 ➔ GET /a?b=c ➔ status:403 (SSO) (\"\")"] ∧
    from_ {} Ex.ssoBe (Ex.req "example.com" "/a" "b=c" (Ex.as "mallory@example.com")) =
      ["mallory@example.com".toList] := by decide +kernel

/-- The callback itself shows the path; the login page shows its token, and a callback for the wrong host its code. -/
example :
    (messages (Ex.world .failed) {} Ex.ssoBe (Ex.req "login.example.com" "/cb" "code=s3cret")).map String.ofList =
      ["REQ [-] tcp:192.0.2.1:1234 ➔ example.com|HTTPS:h2 ➔ GET /cb (SSO callback) (\"\")"] ∧
    (messages (Ex.world .failed) {} Ex.ssoBe (Ex.req "example.com" "/.sso/login" "redirect=t0ken")).map String.ofList =
      ["REQ [-] tcp:192.0.2.1:1234 ➔ example.com|HTTPS:h2 ➔ GET /.sso/login?redirect=t0ken (\"\")"] ∧
    (messages (Ex.world .failed) {} Ex.ssoBe (Ex.req "example.com" "/cb" "code=s3cret")).map String.ofList =
      ["REQ [-] tcp:192.0.2.1:1234 ➔ example.com|HTTPS:h2 ➔ GET /cb?code=s3cret ➔ status:403 (SSO) (\"\")"] := by
  decide +kernel

/-- The hypothesis of `query_logged_violated`. -/
example : LogLines.parseTarget (Ex.req "example.com" "/cb" "code=s3cret").target =
    some (Ex.req "example.com" "/cb" "code=s3cret").url := by decide +kernel

/-- Requests of one user with other credentials and another body. -/
example : messages (Ex.world .failed) {} Ex.ssoBe (Ex.req "example.com" "/a" "b=c" (Ex.as "mallory@example.com")) =
    messages (Ex.world .failed) {} Ex.ssoBe
      { Ex.req "example.com" "/a" "b=c" { bearer := some { email := some "mallory@example.com".toList } } with
        body := "x".toList } := by
  have h : ∀ {o o' : Http.Out}, o = .denied → o' = .denied → SameWay o o' := by
    rintro _ _ rfl rfl
    exact .denied
  exact blind_partial _ _ _ _ _ rfl rfl rfl rfl rfl rfl (by decide +kernel) (h rfl rfl)

/-- A page of the profiler leaves no line, and the login that is needed leaves one. -/
example : messages (Ex.world .failed) {} Ex.ssoBe (Ex.req "example.com" "/debug/pprof/heap" "") = [] ∧
    (messages (Ex.world .failed) {} Ex.ssoBe (Ex.req "example.com" "/a" "")).length = 1 := by decide +kernel

/-- An internal error, as the client is gone while it waits; see also `Verif.Http` for the other answers. -/
example : messages (Ex.world .failed) { waitOK := false } Ex.be (Ex.req "example.com" "/a" "") = [] :=
  ((own_unlogged_violated (Ex.world .failed) { waitOK := false } Ex.be (Ex.req "example.com" "/a" "")).2.1
    rfl).1

/-- A token of no session. -/
example :
    let tok : Token.Claims := [("iss", .str []), ("url", .str "https://example.com/".toList)]
    (sessionMessage [tok] (some "4".toList) [] 0 tok).map String.ofList =
      some "ERR session ID mismatch \"4\" != %!q(<nil>)" := by decide +kernel

/-- Tokens of sessions. -/
example :
    let tok : Token.Claims := [("iss", .str []), ("url", .str "https://example.com/".toList), ("sid", .str "5".toList)]
    (sessionMessage [tok] (some "4".toList) [] 0 tok).map String.ofList =
      some "ERR session ID mismatch \"4\" != \"5\"" := by decide +kernel

end Verif.Audit
