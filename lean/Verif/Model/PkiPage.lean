import Verif.Model.Pki
/-!
The certificate management page: `ServeCertificateManagement`
(proxy/internal/pki/http.go:187-342), `handleRevokeCert` (411-457), `handleDownloadCert`
(459-476), `findCert` (511-527), together with the buttons of the template (certs.html:40-77)
and the requests they send (certs.js:53-86, 149-166).

Simplifications: stored certificates always parse; the CA exists (`m.db.CACert` is set by the
constructor); the contents of issued certificates, static files and the columns that are only
displayed are left out. `handleRequestCert` is in `Model/Pki.lean` and is only named here.
-/
namespace Verif.PkiPage

open Verif.Pki (Str Cert Db Cfg findCert)

/-- A request to the page. `email` is the claim (`none`: no claims in the context; the empty
string stands for a missing claim); the strings are `req.Form.Get(…)`. -/
structure Req where
  email : Option Str
  get : Str := []
  admin : Str := []
  status : Str := []
  owner : Str := []
  sn : Str := []
  post : Bool := false
  csrf : Bool := false
  now : Nat

inductive Status where
  | valid
  | revoked
  | expired
deriving DecidableEq, Repr

/-- One entry of the list (pki/http.go:241-256), with what matters for the buttons. -/
structure Row where
  cert : Cert
  status : Status
  canRevoke : Bool
deriving DecidableEq, Repr

inductive Answer where
  | internalError
  | badRequest
  /-- the JSON answer "permission denied" -/
  | denied
  | page (rows : List Row)
  /-- the request goes on to `RevokeCertificate` -/
  | revoke (serial : Nat)
  /-- the certificate is sent -/
  | pem (c : Cert)
  | requestCert
  | static
deriving DecidableEq, Repr

/-- pki/http.go:269-278. -/
def statusOf (now : Nat) (c : Cert) : Status :=
  if c.rev.isSome then .revoked else if c.notAfter < now then .expired else .valid

/-- pki/http.go:279-287: whether the filter skips a certificate. -/
def skipped (filter : Str) (st : Status) : Bool :=
  if (filter = [] ∨ filter = "valid".toList) ∧ st ≠ .valid then true
  else if filter = "revoked".toList ∧ st ≠ .revoked then true
  else filter = "expired".toList ∧ st ≠ .expired

/-- pki/http.go:260-320: the loop over the issued certificates. -/
def rows (email : Str) (isAdmin : Bool) (owner filter : Str) (now : Nat) : List Cert → List Row
  | [] => []
  | c :: cs =>
    let rest := rows email isAdmin owner filter now cs
    if owner ≠ "all".toList ∧ email ∉ c.emails then rest
    else if skipped filter (statusOf now c) then rest
    else { cert := c, status := statusOf now c,
           canRevoke := ! c.isCA && (isAdmin || decide (email ∈ c.emails)) } :: rest

/-- pki/http.go:411-448 `handleRevokeCert` up to the call of `RevokeCertificate`. -/
def handleRevoke (db : Db) (r : Req) (email : Str) (isAdmin : Bool) : Answer :=
  if ¬ r.post then .badRequest
  else if ¬ r.csrf then .badRequest
  else match findCert db r.sn with
    | none => .internalError
    | some c =>
      if c.notAfter < r.now then .badRequest
      else if ! isAdmin && ! decide (email ∈ c.emails) then .denied
      else .revoke c.serial

/-- pki/http.go:459-476 `handleDownloadCert`. -/
def handleDownload (db : Db) (r : Req) : Answer :=
  if r.post then .badRequest
  else match findCert db r.sn with
    | none => .internalError
    | some c => .pem c

/-- pki/http.go:187-342 `ServeCertificateManagement`; `lower` is `strings.ToLower`. -/
def serve (cfg : Cfg) (lower : Str → Str) (db : Db) (r : Req) : Answer :=
  match r.email with
  | none => .internalError
  | some email =>
    let isAdmin := decide (r.admin ≠ []) && decide (email ∈ cfg.admins)
    if r.get = "requestCert".toList then .requestCert
    else if r.get = "revokeCert".toList then handleRevoke db r email isAdmin
    else if r.get = "downloadCert".toList then handleDownload db r
    else if r.get = "static".toList then .static
    else if r.get ≠ [] then .badRequest
    else .page (rows email isAdmin (lower r.owner) (lower r.status) r.now db.issued).reverse

inductive Button where
  | view
  | download
  | revoke
deriving DecidableEq, Repr

/-- certs.html:68-75: the buttons beside an entry. -/
def buttons (row : Row) : List Button :=
  [.view, .download] ++ (if row.status = .valid then (if row.canRevoke then [.revoke] else []) else [])

/-- certs.js:53-64 `revokeCert`, 84-86 `downloadCert`, 149-150 `showView`: the request a button
of the page sends. The new query replaces that of the page, whatever it was. -/
def click (r : Req) (b : Button) (row : Row) (now : Nat) : Req :=
  match b with
  | .view | .download => { email := r.email, get := "downloadCert".toList, sn := row.cert.text, now := now }
  | .revoke =>
    { email := r.email, get := "revokeCert".toList, sn := row.cert.text, post := true, csrf := true, now := now }

end Verif.PkiPage
