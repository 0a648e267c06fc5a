import Verif.Model.CrossSite
import Verif.Props.Ceremony
/-
A page of another host cannot do anything in the user's name: it cannot have certificates issued or
revoked, SSH certificates signed, passkeys changed, WebSockets connected, or the user logged out.

The login cookie does not protect against hosts of the same site, whose requests carry it. What does is
that the endpoints want a header that the browser sends to other origins only if they allow it, and that
WebSockets compare the origin. Two things are not protected: logging out, and the service worker of the
certificate page, which adds that header for any page that posts a form to it.
-/
namespace Verif.CrossSite

namespace Spec

/-- The page is on another host than the one it wants something from. -/
def Foreign (a : Ask) : Prop := fold a.page.host ≠ fold a.host

/-- A form that is posted to the address of the service worker, by whichever page. -/
def ToWorker (b : Browser) (a : Ask) : Prop :=
  a.kind = .navigate ∧ a.method = "POST".toList ∧ ∃ w ∈ b.workers, w.host = a.host ∧ w.scope.isPrefixOf a.path = true

end Spec

open Spec

theorem foreign_not_own {a : Ask} (h : Foreign a) : a.page ≠ ownOrigin a := by
  intro e
  apply h
  rw [e]
  rfl

theorem no_worker {b : Browser} {a : Ask} (hk : a.kind = .navigate) (hm : a.method = "POST".toList)
    (h : ¬ ToWorker b a) : workerFor b a = none := by
  unfold workerFor
  rw [List.find?_eq_none]
  intro w hw hp
  simp only [Bool.and_eq_true, decide_eq_true_eq] at hp
  exact h ⟨hk, hm, w, hw, hp.1, hp.2⟩

theorem post_ne_get : "POST".toList ≠ "GET".toList := by decide +kernel
theorem revoke_ne_request : "revokeCert".toList ≠ "requestCert".toList := by decide +kernel
theorem form_simple : simpleTypes.contains "application/x-www-form-urlencoded".toList = true := by decide +kernel
theorem post_origin : ¬ (decide ("POST".toList = "GET".toList) || decide ("POST".toList = "HEAD".toList)) = true := by
  decide +kernel
theorem empty_ne_one : ([] : Str) ≠ "1".toList := by decide +kernel

/-- What arrives because of a page of another host: never the header, and for a WebSocket always the
origin of the page. -/
theorem sent_foreign {b : Browser} {a : Ask} (hf : Foreign a) (hw : ¬ ToWorker b a) {s : Sent} (hs : s ∈ sent b a) :
    s.csrf = [] ∧ s.host = a.host ∧ s.path = a.path ∧ (s.upgrade = true → s.origin = some a.page) := by
  have ho := foreign_not_own hf
  unfold sent at hs
  dsimp only at hs
  split at hs
  · rename_i hk
    split at hs
    · obtain rfl := List.mem_singleton.mp hs
      exact ⟨rfl, rfl, rfl, fun h => (nomatch h)⟩
    · split at hs
      · rename_i hm
        simp only [Bool.and_eq_true, decide_eq_true_eq] at hm
        rw [no_worker hk hm.1 hw] at hs
        obtain rfl := List.mem_singleton.mp hs
        exact ⟨rfl, rfl, rfl, fun h => (nomatch h)⟩
      · cases hs
  · obtain rfl := List.mem_singleton.mp hs
    exact ⟨rfl, rfl, rfl, fun _ => rfl⟩
  · rw [if_neg ho] at hs
    split at hs
    · obtain rfl := List.mem_singleton.mp hs
      exact ⟨rfl, rfl, rfl, fun h => (nomatch h)⟩
    · obtain rfl := List.mem_singleton.mp hs
      exact ⟨rfl, rfl, rfl, fun h => (nomatch h)⟩

theorem revoke_needs_header {cfg : Pki.Cfg} {db : Pki.Db} {r : PkiPage.Req} {n : Nat} (hr : r.csrf = false) :
    PkiPage.serve cfg id db r ≠ .revoke n := by
  intro h
  unfold PkiPage.serve at h
  split at h
  · cases h
  · dsimp only at h
    split at h
    · cases h
    · split at h
      · unfold PkiPage.handleRevoke at h
        split at h
        · cases h
        · rw [if_pos (by simp [hr])] at h
          cases h
      · split at h
        · unfold PkiPage.handleDownload at h
          split at h
          · cases h
          · split at h <;> cases h
        · split at h
          · cases h
          · split at h <;> cases h

theorem pki_needs_header {x : Site} {s : Sent} (h : s.csrf = []) : servePki x s = [] := by
  unfold servePki
  split
  · rfl
  · split
    · unfold requestCert
      split
      · rfl
      · rw [if_pos (by rw [h]; exact empty_ne_one)]
    · rename_i n hn
      refine absurd hn (revoke_needs_header ?_)
      dsimp only
      rw [h]
      exact decide_eq_false empty_ne_one
    · rfl

theorem ssh_needs_header {x : Site} {s : Sent} (h : s.csrf = []) : serveSsh x s = [] := by
  unfold serveSsh
  split
  · rename_i c hc
    unfold Sshca.serve at hc
    split at hc
    · cases hc
    · dsimp only at hc
      split at hc
      · cases hc
      · split at hc
        · cases hc
        · rw [if_pos (by rw [h]; exact empty_ne_one)] at hc
          cases hc
  · rfl

/-- C144. A request that a page of another host has the browser send has no effect, whatever the request,
and whether or not the login cookie goes with it. Missing: logging out, and forms posted to the service
worker of the certificate page. -/
theorem no_effect_partial (x : Site) (b : Browser) (a : Ask) (hf : Foreign a) (hl : a.path ≠ logoutPath)
    (hw : ¬ ToWorker b a) : ∀ s ∈ sent b a, handle x s = [] := by
  intro s hs
  obtain ⟨h1, h2, h3, h4⟩ := sent_foreign hf hw hs
  unfold handle
  rw [if_neg (by rw [h3]; exact hl)]
  split
  · rfl
  · split
    · exact pki_needs_header h1
    · split
      · exact ssh_needs_header h1
      · split
        · unfold serveSocket
          split
          · rename_i hc
            simp only [Bool.and_eq_true, decide_eq_true_eq] at hc
            have ho := h4 hc.1.1
            have := hc.2
            unfold sameOrigin at this
            rw [ho] at this
            simp only [decide_eq_true_eq] at this
            rw [h2] at this
            exact absurd this hf
          · rfl
        · rfl

/-- C144 (passkeys). Nor does it change a passkey, begin or end a ceremony, or log anyone in. -/
theorem passkeys_untouched_partial (b : Browser) (a : Ask) (hf : Foreign a) (hw : ¬ ToWorker b a)
    (y : Ceremony.Site) (st : Passkey.State) (h : Ceremony.Handler) (r : Ceremony.Req) (s : Sent) (hs : s ∈ sent b a)
    (hc : r.csrf = s.csrf) :
    (Ceremony.serve y st h r).1 = st ∧ ¬ Ceremony.Spec.Active (Ceremony.serve y st h r).2 := by
  refine Ceremony.forged_harmless y st h r fun ho => ?_
  have := ho.2
  rw [hc, (sent_foreign hf hw hs).1] at this
  exact empty_ne_one this

/-- A link. -/
def Spec.link (page : Origin) (host path : Str) : Ask := { page := page, kind := .navigate, host := host, path := path }

/-- A form that is posted. -/
def Spec.form (page : Origin) (host path : Str) (body : List Nat) : Ask :=
  { page := page, kind := .navigate, host := host, path := path, method := "POST".toList,
    ctype := "application/x-www-form-urlencoded".toList, body := body }

/-- The requests of the scripts on the certificate page, certs.js:25-34 and 53-64. -/
def Spec.button (host path get sn : Str) (ctype : String) (body : List Nat) : Ask :=
  { page := ⟨"https".toList, host⟩, kind := .fetch, host := host, path := path, get := get, sn := sn,
    method := "POST".toList, ctype := ctype.toList, csrf := "1".toList, body := body }

/-- C144 (violated). Any page can log the user out with a link. -/
theorem logout_violated (x : Site) (b : Browser) (page : Origin) (host : Str) (hsso : x.sso = true) :
    (sent b (link page host logoutPath)).map (handle x) = [[.loggedOut]] := by
  have e : ∀ s : Sent, s.path = logoutPath → handle x s = [.loggedOut] := by
    intro s hs
    unfold handle
    rw [if_pos hs, serveLogout, if_pos hsso]
  unfold sent link
  dsimp only
  rw [if_pos rfl, List.map_cons, List.map_nil, e _ rfl]

/-- A request to the certificate page by someone who is logged in and let in. -/
theorem handle_pki {x : Site} {s : Sent} (hp : s.path = x.pki) (hlog : x.pki ≠ logoutPath) (hsso : x.sso = true)
    (hin : x.permitted = true) (hc : s.cookies = true) :
    handle x s = servePki x s ∧ claims x s = some x.email := by
  have hcl : claims x s = some x.email := by unfold claims; rw [hsso, hc]; rfl
  refine ⟨?_, hcl⟩
  have he : enforce x s = true := by
    unfold enforce
    split
    · rfl
    · rw [hcl]; exact hin
  unfold handle
  rw [if_neg (by rw [hp]; exact hlog), he, if_neg (by decide), if_pos hp]

theorem request_issued {x : Site} {s : Sent} (hp : s.path = x.pki) (hlog : x.pki ≠ logoutPath) (hsso : x.sso = true)
    (hin : x.permitted = true) (hc : s.cookies = true) (hg : s.get = "requestCert".toList)
    (hm : s.method = "POST".toList) (hh : s.csrf = "1".toList) (ht : s.ctype = "application/x-pem-file".toList)
    (hok : x.acceptable s.body = true) : handle x s = [.issued x.email s.body] := by
  obtain ⟨h1, h2⟩ := handle_pki hp hlog hsso hin hc
  rw [h1, servePki, h2]
  dsimp only
  have e3 : PkiPage.serve x.cfg id x.db
      { email := some x.email, get := s.get, sn := s.sn, admin := s.admin, post := s.method = "POST".toList,
        csrf := s.csrf = "1".toList, now := x.now } = .requestCert := by
    unfold PkiPage.serve
    dsimp only
    exact if_pos hg
  rw [e3]
  dsimp only
  unfold requestCert
  rw [if_neg (fun h => h hm), if_neg (fun h => h hh), if_neg (fun h => h ht), if_pos hok]

theorem sent_form {b : Browser} {a : Ask} {w : Worker} (hk : a.kind = .navigate) (hm : a.method = "POST".toList)
    (ht : simpleTypes.contains a.ctype = true) (hw : workerFor b a = some w) :
    sent b a = [generateKeyAndCert b w a.body] := by
  unfold sent
  dsimp only
  rw [hk]
  dsimp only
  rw [if_neg (by rw [hm]; exact post_ne_get), if_pos (by rw [ht, decide_eq_true hm]; rfl), hw]

theorem serve_revoke {cfg : Pki.Cfg} {db : Pki.Db} {r : PkiPage.Req} {email : Str} {c : Pki.Cert}
    (he : r.email = some email) (hg : r.get = "revokeCert".toList) (hp : r.post = true) (hh : r.csrf = true)
    (hc : Pki.findCert db r.sn = some c) (hmine : email ∈ c.emails) (hnow : r.now ≤ c.notAfter) :
    PkiPage.serve cfg id db r = .revoke c.serial := by
  unfold PkiPage.serve
  rw [he]
  dsimp only
  rw [if_neg (by rw [hg]; exact revoke_ne_request), if_pos hg]
  unfold PkiPage.handleRevoke
  rw [if_neg (by simp [hp]), if_neg (by simp [hh]), hc]
  dsimp only
  rw [if_neg (by omega), if_neg (by simp [hmine])]

/-- C144 (violated). Once the user has made a key on the certificate page, any page, of any site, can have
certificates issued to the user: it posts a form to the address of the service worker, which sends the
request with the header and the cookie. The form chooses the names in the certificate. -/
theorem worker_violated (x : Site) (b : Browser) (page : Origin) (w : Worker) (body : List Nat)
    (hw : b.workers = [w]) (hp : w.page = x.pki) (hlog : x.pki ≠ logoutPath) (hsso : x.sso = true)
    (hin : x.permitted = true) (hok : x.acceptable (b.csr body) = true) :
    (sent b (form page w.host w.scope body)).map (handle x) = [[.issued x.email (b.csr body)]] := by
  have hs : sent b (form page w.host w.scope body) = [generateKeyAndCert b w body] :=
    sent_form rfl rfl form_simple (by
      unfold workerFor form
      rw [hw, List.find?_cons_of_pos (by simp)])
  rw [hs, List.map_cons, List.map_nil]
  rw [request_issued (s := generateKeyAndCert b w body) hp hlog hsso hin rfl rfl rfl rfl rfl hok]
  rfl

theorem sent_button (b : Browser) (host path get sn : Str) (ctype : String) (body : List Nat) :
    sent b (button host path get sn ctype body) =
      [{ host := host, path := path, get := get, sn := sn, admin := [], method := "POST".toList, ctype := ctype.toList,
         csrf := "1".toList, origin := some ⟨"https".toList, host⟩, cookies := true, upgrade := false, body := body }] := by
  unfold sent button
  dsimp only
  unfold ownOrigin
  dsimp only
  rw [if_pos rfl, if_neg post_origin]

/-- C144 (own pages). The checks do not stop the proxy's own pages: the button for a new certificate gets
one. -/
theorem own_request (x : Site) (b : Browser) (host : Str) (csr : List Nat) (hlog : x.pki ≠ logoutPath)
    (hsso : x.sso = true) (hin : x.permitted = true) (hok : x.acceptable csr = true) :
    (sent b (button host x.pki "requestCert".toList [] "application/x-pem-file" csr)).map (handle x) =
      [[.issued x.email csr]] := by
  rw [sent_button, List.map_cons, List.map_nil, request_issued rfl hlog hsso hin rfl rfl rfl rfl rfl hok]

/-- C144 (own pages). The button to revoke a certificate of the user revokes it. -/
theorem own_revoke (x : Site) (b : Browser) (host sn : Str) (c : Pki.Cert) (hlog : x.pki ≠ logoutPath)
    (hsso : x.sso = true) (hin : x.permitted = true) (hc : Pki.findCert x.db sn = some c)
    (hmine : x.email ∈ c.emails) (hnow : x.now ≤ c.notAfter) :
    (sent b (button host x.pki "revokeCert".toList sn "application/x-www-form-urlencoded" [])).map (handle x) =
      [[.revoked c.serial]] := by
  rw [sent_button, List.map_cons, List.map_nil]
  obtain ⟨h1, h2⟩ := handle_pki (x := x)
    (s := { host := host, path := x.pki, get := "revokeCert".toList, sn := sn, admin := [], method := "POST".toList,
            ctype := "application/x-www-form-urlencoded".toList, csrf := "1".toList,
            origin := some ⟨"https".toList, host⟩, cookies := true, upgrade := false, body := [] })
    rfl hlog hsso hin rfl
  rw [h1, servePki, h2]
  dsimp only
  rw [serve_revoke (email := x.email) (c := c) rfl rfl (by dsimp only; exact decide_eq_true rfl)
    (by dsimp only; exact decide_eq_true rfl) hc hmine hnow]

/-- C144 (login). Without the login cookie, or without single sign-on, nothing is signed or revoked, whichever
headers are sent. -/
theorem needs_login (x : Site) (s : Sent) (hl : s.path ≠ logoutPath) (h : s.cookies = false ∨ x.sso = false) :
    ∀ e ∈ handle x s, e = .socket := by
  have hc : claims x s = none := by
    unfold claims
    rw [if_neg]
    rcases h with h | h <;> simp [h]
  intro e he
  unfold handle at he
  rw [if_neg hl] at he
  split at he
  · cases he
  · split at he
    · unfold servePki at he
      rw [hc] at he
      cases he
    · split at he
      · unfold serveSsh at he
        rw [hc] at he
        split at he
        · rename_i c hs
          unfold Sshca.serve at hs
          split at hs
          · cases hs
          · dsimp only at hs
            rw [if_pos (show Sshca.emailOf (Option.map _ none) = [] from rfl)] at hs
            cases hs
        · cases he
      · split at he
        · unfold serveSocket at he
          split at he
          · exact List.mem_singleton.mp he
          · cases he
        · cases he

/-- C144 (login). Where single sign-on covers the path, nothing at all happens without the login cookie. -/
theorem covered_needs_login (x : Site) (s : Sent) (hl : s.path ≠ logoutPath) (hc : s.cookies = false)
    (hx : x.sso = true) (hp : x.covered s.path = true) : handle x s = [] := by
  unfold handle enforce claims
  simp [hl, hc, hx, hp]

/-- C144 (own pages). A WebSocket opened by a page of the same host is connected. -/
theorem own_socket (x : Site) (b : Browser) (host : Str) (h1 : x.ws ≠ logoutPath) (h2 : x.ws ≠ x.pki)
    (h3 : x.ws ≠ x.ssh) (hin : x.sso = true → x.permitted = true) :
    (sent b { page := ⟨"https".toList, host⟩, kind := .socket, host := host, path := x.ws }).map (handle x) =
      [[.socket]] := by
  unfold sent
  dsimp only
  rw [List.map_cons, List.map_nil]
  unfold handle
  dsimp only
  have he : ∀ s : Sent, s.cookies = true → enforce x s = true := by
    intro s hs
    unfold enforce claims
    split
    · rfl
    · rename_i hc
      have hx : x.sso = true := by
        cases h : x.sso with
        | true => rfl
        | false => exact absurd (by simp [h]) hc
      rw [hx, hs]
      exact hin hx
  rw [if_neg h1, he _ (by simp [ownOrigin]), if_neg (by decide), if_neg h2, if_neg h3, if_pos rfl]
  unfold serveSocket sameOrigin
  simp

/-! ## An example -/

namespace Example

def cert : Pki.Cert :=
  { text := "07".toList, serial := 7, cn := "ann@example.com".toList, emails := ["ann@example.com".toList], dns := [],
    uris := [], ips := [], clientAuth := true, serverAuth := false, isCA := false, notAfter := 1000, rev := none }

def x : Site where
  email := "ann@example.com".toList
  sso := true
  covered := fun _ => true
  permitted := true
  pki := "/certs".toList
  ssh := "/ssh".toList
  ws := "/ws".toList
  cfg := ⟨[]⟩
  db := ⟨[cert], 0, [], []⟩
  now := 10
  acceptable := fun b => b ≠ []
  sshEnv := { hasSigner := true, parse := some, rnd := some 5, signs := fun _ => true, now := 1000000000000 }

def host : Str := "pki.example.com".toList

/-- All hosts of example.com are one site; the user has made a key before. -/
def b : Browser where
  sameSite := fun o p => ".example.com".toList.isSuffixOf o.host && ".example.com".toList.isSuffixOf p.host
  workers := [⟨host, "/certs/generateKeyAndCert".toList, "/certs".toList⟩]
  csr := id

def blog : Origin := ⟨"https".toList, "blog.example.com".toList⟩
def evil : Origin := ⟨"https".toList, "evil.test".toList⟩

/-- A page of the same site that tries to revoke the certificate: its request with the header becomes a
preflight, and the one without it comes with the cookie but is refused. -/
def attempt (csrf : Str) : Ask :=
  { page := blog, kind := .fetch, host := host, path := "/certs".toList, get := "revokeCert".toList, sn := "07".toList,
    method := "POST".toList, ctype := "text/plain".toList, csrf := csrf }

example : Foreign (attempt []) ∧ (attempt []).path ≠ logoutPath := by unfold Foreign; decide +kernel
example : (sent b (attempt [])).map (fun s => (s.method, s.cookies)) = [("POST".toList, true)] := by decide +kernel
example : (sent b (attempt "1".toList)).map (fun s => (s.method, s.cookies)) = [("OPTIONS".toList, false)] := by
  decide +kernel
example : (sent b { attempt "1".toList with page := ⟨"https".toList, host⟩ }).map (handle x) = [[.revoked 7]] := by
  decide +kernel
example : ∀ s ∈ sent b (attempt []), handle x s = [] :=
  no_effect_partial x b _ (by unfold Foreign; decide +kernel) (by decide +kernel) (fun h => (nomatch h.1))

/-- The SSH endpoint takes the type of a plain form, and is protected by the header alone. -/
def key : Ask :=
  { page := blog, kind := .fetch, host := host, path := "/ssh".toList, method := "POST".toList,
    ctype := "text/plain".toList, body := [1, 2] }

example : (sent b key).map (fun s => (s.method, s.ctype, s.cookies)) =
    [("POST".toList, "text/plain".toList, true)] ∧ (sent b key).map (handle x) = [[]] := by decide +kernel
example : ((sent b { key with page := ⟨"https".toList, host⟩, csrf := "1".toList }).map (handle x)).flatten.length = 1 := by
  decide +kernel

example : (sent b { page := blog, kind := .socket, host := host, path := "/ws".toList }).map (handle x) = [[]] ∧
    (sent b { page := ⟨"https".toList, host⟩, kind := .socket, host := host, path := "/ws".toList }).map (handle x) =
      [[.socket]] := by decide +kernel

example : (sent b (form evil host "/certs/generateKeyAndCert".toList [3])).map (handle x) =
    [[.issued "ann@example.com".toList [3]]] := by decide +kernel

example : Pki.findCert x.db "07".toList = some cert ∧ x.email ∈ cert.emails ∧ x.now ≤ cert.notAfter ∧
    x.pki ≠ logoutPath := by decide +kernel

end Example

end Verif.CrossSite
