import Verif.Props.Handlers
/-
C29, C30, C31, C34, C35, C36, C39: what forwarded requests and relayed responses contain.
-/
namespace Verif.Http

open Verif.Path (Str pathClean)

/-! ## Headers -/

theorem values_del_self (h : Headers) (k : String) : (h.del k).values k = [] := by
  simp [Headers.values, Headers.del, List.filter_filter]

theorem values_del_ne (h : Headers) {k k' : String} (hk : k ≠ k') : (h.del k').values k = h.values k := by
  unfold Headers.values Headers.del
  rw [List.filter_filter]
  congr 1
  apply List.filter_congr
  intro x _
  by_cases hx : x.1 = k
  · simp [hx, hk]
  · simp [hx]

theorem values_set_self (h : Headers) (k : String) (v : Str) : (h.set k v).values k = [v] := by
  unfold Headers.set
  have := values_del_self h k
  unfold Headers.values at this ⊢
  rw [List.filter_append, List.map_append, this]
  simp

theorem values_set_ne (h : Headers) {k k' : String} (v : Str) (hk : k ≠ k') :
    (h.set k' v).values k = h.values k := by
  unfold Headers.set
  have := values_del_ne h hk
  unfold Headers.values at this ⊢
  rw [List.filter_append, List.map_append, this]
  simp [Ne.symm hk]

theorem get_eq (h : Headers) (k : String) : h.get k = (h.values k).head?.getD [] := by
  unfold Headers.get Headers.values
  induction h with
  | nil => rfl
  | cons a t ih =>
    by_cases ha : a.1 = k
    · simp [ha]
    · simp only [List.find?_cons, ha, decide_false, List.filter_cons]
      exact ih

theorem values_setHeaders (c : Ctx) (hdrs : List (String × String)) (h : Headers) (k : String)
    (hk : k ∉ hdrs.map (·.1)) : (setHeaders c hdrs h).values k = h.values k := by
  induction hdrs generalizing h with
  | nil => rfl
  | cons a t ih =>
    obtain ⟨k', v⟩ := a
    simp only [List.map_cons, List.mem_cons, not_or] at hk
    unfold setHeaders
    rw [ih _ hk.2]
    split
    · exact values_set_ne _ _ hk.1
    · exact values_del_ne _ hk.1

theorem values_director (c : Ctx) (be : Be) (h : Headers) {k : String} (h1 : k ≠ xffHeader)
    (h2 : k ≠ xfccHeader) : (director c be h).values k = h.values k := by
  unfold director
  dsimp only
  split
  · rw [values_set_ne _ _ h2, values_del_ne _ h2, values_del_ne _ h1]
  · rw [values_del_ne _ h2, values_del_ne _ h1]

theorem values_filter (h : Headers) (p : String → Bool) (k : String) :
    Headers.values (h.filter fun e => p e.1) k = if p k then h.values k else [] := by
  unfold Headers.values
  rw [List.filter_filter]
  split
  · rename_i hp
    congr 1
    apply List.filter_congr
    intro x _
    by_cases hx : x.1 = k
    · simp [hx, hp]
    · simp [hx]
  · rename_i hp
    rw [List.map_eq_nil_iff, List.filter_eq_nil_iff]
    intro x _
    by_cases hx : x.1 = k
    · simp [hx, hp]
    · simp [hx]

/-- The header names a request declares hop-by-hop. -/
def Spec.connListed (c : Ctx) (h : Headers) : List String := (h.values "Connection").flatMap c.listed

theorem values_removeHop (c : Ctx) (h : Headers) (k : String) :
    (removeHop c h).values k =
      if k ∈ Spec.connListed c h ∨ k ∈ hopHeaders then [] else h.values k := by
  unfold removeHop Spec.connListed
  dsimp only
  have e1 := values_filter (h.filter fun e => e.1 ∉ (h.values "Connection").flatMap c.listed)
    (fun n => decide (n ∉ hopHeaders)) k
  have e2 := values_filter h (fun n => decide (n ∉ (h.values "Connection").flatMap c.listed)) k
  rw [e1, e2]
  by_cases h1 : k ∈ hopHeaders
  · rw [if_neg (by simp [h1]), if_pos (.inr h1)]
  · rw [if_pos (by simp [h1])]
    by_cases h2 : k ∈ (h.values "Connection").flatMap c.listed
    · rw [if_neg (by simp only [h2]; decide), if_pos (.inl h2)]
    · rw [if_pos (by simp only [h2]; decide), if_neg (by simp only [h1, h2]; decide)]

/-- Values of the headers of a forwarded request, for the names the proxy itself takes care
of. -/
theorem forward_headers {c : Ctx} {be : Be} {r : Req} {p : Str} {hs : Headers}
    {ck : List (String × String)} {ov : Option Nat} {k : Str}
    (h : serve c be r = .forward p hs ck ov k) :
    ∃ a v hdrs, Passed c be r a ck ∧
      (hdrs = be.headers ∨ ∃ o ∈ be.overrides, o.headers = some hdrs) ∧
      via c.me r.proto ((a.headers.set "Host" (Spec.target c r).toList).get viaHeader) = some v ∧
      hs = reverseProxyHeaders c be (setHeaders c hdrs
        ((a.headers.set "Host" (Spec.target c r).toList).set viaHeader v)) := by
  obtain ⟨a, ck', hp, h2⟩ := serve_last (.inl ⟨p, hs, ck, ov, k, h⟩)
  rw [h] at h2
  split at h2
  · have hrp := reverseProxy_inv c be r a.headers ck'
    rw [← h2] at hrp
    cases hrp with
    | forward _ ver san hdrs v hm ha hsel hv =>
      refine ⟨a, v, hdrs, hp, ?_, hv, rfl⟩
      have hc := choose_spec (pathClean r.path) be.overrides 0
      generalize chooseOverride (pathClean r.path) 0 be.overrides = ch at hc hsel
      cases hsel with
      | own => exact .inl rfl
      | override i o =>
        obtain ⟨j, _, h3, _⟩ := hc
        cases ho : o.headers with
        | none => exact .inl rfl
        | some x => exact .inr ⟨o, List.mem_of_getElem? h3.1, ho⟩
  · cases h2

/-- The header is not among those configured for the backend or an override. -/
def Spec.NotConfigured (be : Be) (k : String) : Prop :=
  k ∉ be.headers.map (·.1) ∧ ∀ o ∈ be.overrides, ∀ hdrs, o.headers = some hdrs → k ∉ hdrs.map (·.1)

theorem notConfigured {be : Be} {k : String} (h : Spec.NotConfigured be k)
    {hdrs : List (String × String)}
    (hh : hdrs = be.headers ∨ ∃ o ∈ be.overrides, o.headers = some hdrs) : k ∉ hdrs.map (·.1) := by
  rcases hh with rfl | ⟨o, ho, hh⟩
  · exact h.1
  · exact h.2 o ho _ hh

theorem values_reverseProxyHeaders (c : Ctx) (be : Be) (h : Headers) {k : String}
    (h1 : k ≠ xffHeader) (h2 : k ≠ xfccHeader) :
    (reverseProxyHeaders c be h).values k =
      if k ∈ Spec.connListed c h ∨ k ∈ hopHeaders then [] else h.values k := by
  unfold reverseProxyHeaders
  dsimp only
  rw [values_set_ne _ _ h1, values_removeHop, values_director c be h h1 h2]
  unfold Spec.connListed
  rw [values_director c be h (by decide) (by decide)]

/-- What the forwarded request has for a header that is not configured: the values after
authentication, or nothing if it is hop-by-hop. -/
theorem forward_values {c : Ctx} {be : Be} {r : Req} {p : Str} {hs : Headers}
    {ck : List (String × String)} {ov : Option Nat} {k : Str}
    (h : serve c be r = .forward p hs ck ov k) {n : String} (hn : Spec.NotConfigured be n)
    (h1 : n ≠ "X-Forwarded-For") (h2 : n ≠ "X-Forwarded-Client-Cert") (h3 : n ≠ viaHeader) (h4 : n ≠ "Host") :
    ∃ a, authenticate c be r = .ok a ∧
      (hs.values n = a.headers.values n ∨ hs.values n = []) ∧
      (Spec.NotConfigured be "Connection" → n ∉ hopHeaders →
        n ∉ Spec.connListed c a.headers → hs.values n = a.headers.values n) := by
  obtain ⟨a, v, hdrs, hp, hh, hv, rfl⟩ := forward_headers h
  refine ⟨a, hp.1, ?_⟩
  rw [values_reverseProxyHeaders c be _ h1 h2, values_setHeaders c hdrs _ n (notConfigured hn hh),
    values_set_ne _ _ h3, values_set_ne _ _ h4]
  constructor
  · split
    · exact .inr rfl
    · exact .inl rfl
  · intro hc hhop hl
    rw [if_neg]
    rintro (hx | hx)
    · unfold Spec.connListed at hx
      rw [values_setHeaders c hdrs _ "Connection" (notConfigured hc hh),
        values_set_ne _ _ (by decide), values_set_ne _ _ (by decide)] at hx
      exact hl hx
    · exact hhop hx

/-! ## C29, C30 -/

theorem authenticate_uid {c : Ctx} {be : Be} {r : Req} {a : Authed}
    (h : authenticate c be r = .ok a) :
    (∀ n, n ≠ uidHeader → a.headers.values n = r.headers.values n) ∧
    ((a.headers.values uidHeader = [] ∧ ∀ s, be.sso = some s → s.setUserID = true → a.claims = none) ∨
      ∃ s cl e, be.sso = some s ∧ s.setUserID = true ∧ a.claims = some cl ∧ cl.email = some e ∧
        e ≠ [] ∧ a.headers.values uidHeader = [e]) := by
  unfold authenticate at h
  dsimp only at h
  split at h
  · rename_i hs
    cases h
    refine ⟨fun n hn => values_del_ne _ hn, .inl ⟨values_del_self _ _, ?_⟩⟩
    intro s hs'; rw [hs] at hs'; cases hs'
  · rename_i s hs
    split at h
    · cases h
    · cases h
    · cases h
      exact ⟨fun n hn => values_del_ne _ hn, .inl ⟨values_del_self _ _, fun _ _ _ => rfl⟩⟩
    · rename_i cl _
      split at h
      · cases h
        exact ⟨fun n hn => values_del_ne _ hn, .inl ⟨values_del_self _ _, fun _ _ _ => rfl⟩⟩
      · rename_i e he
        split at h
        · cases h
          exact ⟨fun n hn => values_del_ne _ hn, .inl ⟨values_del_self _ _, fun _ _ _ => rfl⟩⟩
        · rename_i hne
          cases hu : s.setUserID with
          | true =>
            rw [hu] at h
            simp only [if_true] at h
            cases h
            refine ⟨fun n hn => ?_, .inr ⟨s, cl, e, hs, hu, rfl, he, hne, values_set_self _ _ _⟩⟩
            dsimp only
            rw [values_set_ne _ _ hn, values_del_ne _ hn]
          | false =>
            rw [hu] at h
            simp only [Bool.false_eq_true, if_false] at h
            cases h
            refine ⟨fun n hn => values_del_ne _ hn, .inl ⟨values_del_self _ _, ?_⟩⟩
            intro s' hs' hu'
            rw [hs] at hs'; cases hs'; rw [hu] at hu'; cases hu'

/-- C29. Unless it is configured as a forwarded header, the user-id header of a forwarded
request is absent or has as its only value the email of the identity the request proves, on a
backend that asks for it. -/
theorem user_id_unforgeable (c : Ctx) (be : Be) (r : Req) (p : Str) (hs : Headers)
    (ck : List (String × String)) (ov : Option Nat) (k : Str)
    (hn : Spec.NotConfigured be uidHeader) (h : serve c be r = .forward p hs ck ov k) :
    hs.values uidHeader = [] ∨
    ∃ s cl e, be.sso = some s ∧ s.setUserID = true ∧ Spec.identity r = some cl ∧
      cl.email = some e ∧ e ≠ [] ∧ hs.values uidHeader = [e] := by
  obtain ⟨a, ha, hv, _⟩ := forward_values h hn (by decide) (by decide) (by decide) (by decide)
  rcases hv with hv | hv
  · rcases (authenticate_uid ha).2 with ⟨hu, _⟩ | ⟨s, cl, e, h1, h2, h3, h4, h5, h6⟩
    · left; rw [hv, hu]
    · right; exact ⟨s, cl, e, h1, h2, authenticate_claims ha cl h3, h4, h5, by rw [hv, h6]⟩
  · exact .inl hv

/-- C30, for requests whose Connection header does not list the user-id header: the backend
server gets it whenever the request proves an identity. -/
theorem user_id_delivered_partial (c : Ctx) (be : Be) (r : Req) (p : Str) (hs : Headers)
    (ck : List (String × String)) (ov : Option Nat) (k : Str) (s : SSO) (cl : Claims) (e : Str)
    (hn : Spec.NotConfigured be uidHeader) (hc : Spec.NotConfigured be "Connection")
    (hsso : be.sso = some s) (hu : s.setUserID = true) (hid : Spec.identity r = some cl)
    (he : cl.email = some e)
    (hconn : uidHeader ∉ Spec.connListed c r.headers)
    (h : serve c be r = .forward p hs ck ov k) : hs.values uidHeader = [e] := by
  obtain ⟨a, ha, _, hv⟩ := forward_values h hn (by decide) (by decide) (by decide) (by decide)
  have hau := authenticate_uid ha
  have hcl := authenticate_identity hsso hid ha
  rw [hv hc (by decide) (by unfold Spec.connListed at hconn ⊢; rw [hau.1 _ (by decide)]; exact hconn)]
  rcases hau.2 with ⟨_, h2⟩ | ⟨s', cl', e', h1, h2, h3, h4, h5, h6⟩
  · rw [h2 s hsso hu] at hcl; cases hcl
  · rw [hcl] at h3; cases h3
    rw [he] at h4; cases h4
    exact h6

/-- A world in which Connection headers list one name. -/
def Spec.oneName : Ctx := { listed := fun v => [String.ofList v], remoteIP := "192.0.2.1".toList }

/-- C30 fails: a client that sends `Connection: X-tlsproxy-user-id` makes the proxy drop the
header it has just set. -/
theorem user_id_delivered_violated :
    ∃ (c : Ctx) (be : Be) (r : Req) (s : SSO) (p : Str) (hs : Headers) (ck : List (String × String))
      (ov : Option Nat) (k : Str),
      be.sso = some s ∧ s.setUserID = true ∧ be.headers = [] ∧ be.overrides = [] ∧
      Spec.identity r = some { email := some "bob@example.com".toList } ∧
      serve c be r = .forward p hs ck ov k ∧ hs.values uidHeader = [] := by
  refine ⟨Spec.oneName, { serverNames := ["a"], addresses := ["10.0.0.1:80"], sso := some { setUserID := true } },
    { host := "a", headers := [("Connection", "X-Tlsproxy-User-Id".toList)],
      creds := { authCookie := some { email := some "bob@example.com".toList } } },
    { setUserID := true }, _, _, _, _, _, rfl, rfl, rfl, rfl, by decide, rfl, by decide⟩

/-- Non-vacuity of `user_id_unforgeable` and `user_id_delivered_partial`: a forged header is
replaced, or removed without login. -/
example :
    let be : Be := { serverNames := ["a"], addresses := ["10.0.0.1:80"],
                     sso := some { setUserID := true, paths := ["/private/".toList] } }
    let r : Req := { host := "a", headers := [(uidHeader, "eve".toList), ("Connection", "Foo".toList), (uidHeader, "x".toList)] }
    let bob : Creds := { authCookie := some { email := some "bob@example.com".toList } }
    Spec.NotConfigured be uidHeader ∧ Spec.NotConfigured be "Connection" ∧
    uidHeader ∉ Spec.connListed Spec.oneName r.headers ∧
    (match serve Spec.oneName be r with | .forward _ hs _ _ _ => hs.values uidHeader = [] | _ => False) ∧
    (match serve Spec.oneName be { r with creds := bob } with
      | .forward _ hs _ _ _ => hs.values uidHeader = ["bob@example.com".toList] | _ => False) := by
  refine ⟨by simp [Spec.NotConfigured], by simp [Spec.NotConfigured], by decide, rfl, rfl⟩

/-! ## C31 -/

/-- C31. In every forwarded request, X-Forwarded-For is the client's address alone and
X-Forwarded-Client-Cert is absent or the value generated from the client's certificate. -/
theorem forwarded_unforgeable (c : Ctx) (be : Be) (r : Req) (p : Str) (hs : Headers)
    (ck : List (String × String)) (ov : Option Nat) (k : Str)
    (h : serve c be r = .forward p hs ck ov k) :
    hs.values "X-Forwarded-For" = [c.remoteIP] ∧
    (hs.values "X-Forwarded-Client-Cert" = [] ∨
      (c.peerCert = true ∧ be.addXFCC = true ∧ hs.values "X-Forwarded-Client-Cert" = [c.xfcc])) := by
  show hs.values xffHeader = [c.remoteIP] ∧ (hs.values xfccHeader = [] ∨
      (c.peerCert = true ∧ be.addXFCC = true ∧ hs.values xfccHeader = [c.xfcc]))
  obtain ⟨a, v, hdrs, hp, hh, hv, rfl⟩ := forward_headers h
  generalize setHeaders c hdrs _ = h'
  have hxff : (director c be h').values xffHeader = [] := by
    unfold director
    dsimp only
    split
    · rw [values_set_ne _ _ (by decide), values_del_ne _ (by decide), values_del_self]
    · rw [values_del_ne _ (by decide), values_del_self]
  constructor
  · unfold reverseProxyHeaders
    dsimp only
    rw [values_set_self, values_removeHop, hxff]
    split <;> simp [List.intercalate]
  · unfold reverseProxyHeaders
    dsimp only
    rw [values_set_ne _ _ (by decide), values_removeHop]
    split
    · exact .inl rfl
    · unfold director
      dsimp only
      split
      · rename_i h2; right; exact ⟨h2.1, h2.2, values_set_self _ _ _⟩
      · left; rw [values_del_self]

/-- Non-vacuity: forged headers, also through a configured header. -/
example :
    let be : Be := { serverNames := ["a"], addresses := ["10.0.0.1:80"], headers := [(xffHeader, "1.1.1.1")] }
    let r : Req := { host := "a", headers := [(xffHeader, "127.0.0.1".toList), (xfccHeader, "Hash=1".toList)] }
    (match serve Spec.oneName be r with
      | .forward _ hs _ _ _ => hs.values xffHeader = ["192.0.2.1".toList] ∧ hs.values xfccHeader = []
      | _ => False) ∧
    (match serve { Spec.oneName with peerCert := true, xfcc := "Hash=2".toList } { be with addXFCC := true } r with
      | .forward _ hs _ _ _ => hs.values xfccHeader = ["Hash=2".toList]
      | _ => False) := by
  refine ⟨⟨rfl, rfl⟩, rfl⟩

/-! ## C35 -/

/-- The proxy's own login and session cookies. -/
def Spec.ownCookie (n : String) : Bool := n = "TLSPROXYAUTH" || n = "TLSPROXYSID"

theorem forward_cookies {c : Ctx} {be : Be} {r : Req} {p : Str} {hs : Headers}
    {ck : List (String × String)} {ov : Option Nat} {k : Str}
    (h : serve c be r = .forward p hs ck ov k) :
    ∃ cl, enforce c be r cl = .ok ck := by
  obtain ⟨a, v, hdrs, hp, _⟩ := forward_headers h
  exact ⟨a.claims, localEndpoints_passed.1 ck hp.2⟩

/-- C35, in part. All other cookies are forwarded, in order; on paths under the SSO policy none of
the proxy's own cookies are. What is missing: paths outside the policy and backends without SSO
(`cookies_removed_violated`). -/
theorem cookies_removed_partial (c : Ctx) (be : Be) (r : Req) (p : Str) (hs : Headers)
    (ck : List (String × String)) (ov : Option Nat) (k : Str)
    (h : serve c be r = .forward p hs ck ov k) :
    ck.filter (fun x => !Spec.ownCookie x.1) = r.cookies.filter (fun x => !Spec.ownCookie x.1) ∧
    ck.Sublist r.cookies ∧
    (∀ s, be.sso = some s → Spec.Covered s r.path → ∀ x ∈ ck, Spec.ownCookie x.1 = false) := by
  obtain ⟨cl, he⟩ := forward_cookies h
  have hf : filterCookies r.cookies = r.cookies.filter (fun x => !Spec.ownCookie x.1) := by
    unfold filterCookies Spec.ownCookie
    apply List.filter_congr
    intro x _
    by_cases h1 : x.1 = "TLSPROXYAUTH" <;> by_cases h2 : x.1 = "TLSPROXYSID" <;> simp [h1, h2]
  have hck : ck = r.cookies ∨ ck = filterCookies r.cookies := by
    unfold enforce at he
    split at he
    · cases he; exact .inl rfl
    · rename_i s _
      split at he
      · cases he; exact .inl rfl
      · split at he
        · cases he
        · cases ha : s.acl with
          | none => rw [ha] at he; cases he; exact .inr rfl
          | some l =>
            rw [ha] at he
            dsimp only at he
            rw [apply_ite (· = Except.ok ck)] at he
            simp only [reduceCtorEq, Except.ok.injEq, if_false_left] at he
            exact .inr he.2.symm
  refine ⟨?_, ?_, ?_⟩
  · rcases hck with rfl | rfl
    · rfl
    · rw [hf, List.filter_filter]; simp
  · rcases hck with rfl | rfl
    · exact List.Sublist.refl _
    · exact List.filter_sublist
  · intro s hs' hcov x hx
    obtain ⟨_, _, _, _, h5⟩ := enforce_ok hs' hcov he
    rw [h5, hf, List.mem_filter] at hx
    simpa using hx.2

/-- C35 fails outside the policy: with SSO only on /private/, a request for / is forwarded with
the login cookie. -/
theorem cookies_removed_violated :
    ∃ (c : Ctx) (be : Be) (r : Req) (s : SSO) (p : Str) (hs : Headers) (ck : List (String × String))
      (ov : Option Nat) (k : Str), be.sso = some s ∧ s.paths = ["/private/".toList] ∧
      serve c be r = .forward p hs ck ov k ∧ ("TLSPROXYAUTH", "secret") ∈ ck := by
  refine ⟨Spec.oneName, { serverNames := ["a"], addresses := ["10.0.0.1:80"], sso := some { paths := ["/private/".toList] } },
    { host := "a", cookies := [("TLSPROXYAUTH", "secret")] },
    { paths := ["/private/".toList] }, _, _, _, _, _, rfl, rfl, rfl, by decide⟩

/-- Non-vacuity. -/
example :
    (match serve Spec.oneName { serverNames := ["a"], addresses := ["10.0.0.1:80"], sso := some {} }
        { host := "a", cookies := [("x", "1"), ("TLSPROXYAUTH", "secret"), ("y", "2")],
          creds := { authCookie := some { email := some "bob@example.com".toList } } } with
      | .forward _ _ ck _ _ => ck = [("x", "1"), ("y", "2")]
      | _ => False) := by rfl

/-! ## C36 -/

/-- The PROXY protocol version used towards the backend addresses or those of an override. -/
def Spec.proxyVersion (be : Be) : Option Nat → Nat
  | none => be.proxyVersion
  | some i => (be.overrides[i]?.map (·.proxyVersion)).getD 0

theorem takeWhile_semi (a b : Str) (h : ';' ∉ a) :
    (a ++ ';' :: b).takeWhile (· ≠ ';') = a ∧ (a ++ ';' :: b).dropWhile (· ≠ ';') = ';' :: b := by
  induction a with
  | nil => simp
  | cons x t ih =>
    simp only [List.mem_cons, not_or] at h
    have hx : x ≠ ';' := fun e => h.1 e.symm
    have ih := ih h.2
    simp only [List.cons_append, List.takeWhile_cons, List.dropWhile_cons, ne_eq, hx, not_false_eq_true,
      decide_true, if_true]
    exact ⟨by rw [ih.1], ih.2⟩

theorem semi_split {a a' b b' : Str} (h : a ++ ';' :: b = a' ++ ';' :: b') (h1 : ';' ∉ a)
    (h2 : ';' ∉ a') : a = a' ∧ b = b' := by
  have e1 := takeWhile_semi a b h1
  have e2 := takeWhile_semi a' b' h2
  rw [h] at e1
  have := e1.1.symm.trans e2.1
  have h3 := e1.2.symm.trans e2.2
  exact ⟨this, by simpa using h3⟩

theorem digits_nosemi (n : Nat) : ';' ∉ (toString n).toList := by
  intro h
  have : ∀ c ∈ (toString n).toList, c.isDigit = true := by
    intro c hc
    have : c ∈ Nat.toDigits 10 n := by simpa [toString, Nat.repr] using hc
    exact Nat.isDigit_of_mem_toDigits (by decide) (by decide) this
  exact absurd (this _ h) (by decide)

theorem toString_inj {m n : Nat} (h : (toString m).toList = (toString n).toList) : m = n := by
  have h1 : Nat.toDigits 10 m = Nat.toDigits 10 n := by rw [← Nat.toList_repr, ← Nat.toList_repr]; exact h
  rw [← Nat.ofDigitChars_ten_toDigits (n := m), h1, Nat.ofDigitChars_ten_toDigits]

theorem overrideText_nosemi (ov : Option Nat) : ';' ∉ overrideText ov := by
  cases ov with
  | none => simp [overrideText]
  | some i => exact digits_nosemi i

theorem overrideText_inj {o1 o2 : Option Nat} (he : overrideText o1 = overrideText o2) : o1 = o2 := by
  have hne : ∀ i : Nat, (toString i).toList ≠ [] := by
    intro i hi
    have h0 : Nat.toDigits 10 i = [] := by simpa [toString, Nat.repr] using hi
    exact Nat.toDigits_ne_nil h0
  cases o1 with
  | none => cases o2 with
    | none => rfl
    | some j => exact absurd he.symm (hne j)
  | some i => cases o2 with
    | none => exact absurd he (hne i)
    | some j => rw [toString_inj he]

theorem poolKey_inj {c1 c2 : Ctx} {o1 o2 : Option Nat} {v1 v2 : Nat}
    (h : poolKey c1 o1 v1 = poolKey c2 o2 v2)
    (h1 : ';' ∉ c1.serverName.toList) (h2 : ';' ∉ c2.serverName.toList) :
    c1.serverName = c2.serverName ∧ o1 = o2 ∧ (v1 > 0 ↔ v2 > 0) ∧
      (v1 > 0 → c1.proxyHeader v1 = c2.proxyHeader v2) := by
  unfold poolKey at h
  obtain ⟨ha, hb⟩ := semi_split h h1 h2
  have hd1 := overrideText_nosemi o1
  have hd2 := overrideText_nosemi o2
  refine ⟨String.toList_inj.mp ha, ?_⟩
  by_cases hv1 : v1 > 0 <;> by_cases hv2 : v2 > 0
  · rw [if_pos hv1, if_pos hv2] at hb
    obtain ⟨h3, h4⟩ := semi_split hb hd1 hd2
    exact ⟨overrideText_inj h3, by simp [hv1, hv2], fun _ => h4⟩
  · rw [if_pos hv1, if_neg hv2, List.append_nil] at hb
    exact absurd (show ';' ∈ overrideText o2 by rw [← hb]; simp) hd2
  · rw [if_neg hv1, if_pos hv2, List.append_nil] at hb
    exact absurd (show ';' ∈ overrideText o1 by rw [hb]; simp) hd1
  · rw [if_neg hv1, if_neg hv2, List.append_nil, List.append_nil] at hb
    exact ⟨overrideText_inj hb, by simp [hv1, hv2], fun h => absurd h hv1⟩

/-- The key with which a request is forwarded. -/
theorem forward_key {c : Ctx} {be : Be} {r : Req} {p : Str} {hs : Headers} {ck : List (String × String)}
    {ov : Option Nat} {k : Str} (h : serve c be r = .forward p hs ck ov k) :
    k = c.hash (poolKey c ov (Spec.proxyVersion be ov)) := by
  obtain ⟨a, ck', _, h2⟩ := serve_last (.inl ⟨p, hs, ck, ov, k, h⟩)
  rw [h] at h2
  split at h2
  · have hrp := reverseProxy_inv c be r a.headers ck'
    rw [← h2] at hrp
    cases hrp with
    | forward _ ver san hdrs v hm ha hsel hv =>
      have hc := choose_spec (pathClean r.path) be.overrides 0
      generalize chooseOverride (pathClean r.path) 0 be.overrides = ch at hc hsel
      cases hsel with
      | own => rfl
      | override i o =>
        obtain ⟨j, rfl, h3, _⟩ := hc
        have : Spec.proxyVersion be (some (0 + j)) = o.proxyVersion := by
          simp [Spec.proxyVersion, h3.1]
        rw [this]
  · cases h2

/-- C36. Two requests to a backend that are forwarded with the same connection pool key came for
the same server name, use the same override (or none), and if the PROXY protocol is used there,
the header that announces the client's addresses is the same. Collisions of SHA-256 and server
names with ';' are excluded. -/
theorem pool_not_shared (c1 c2 : Ctx) (be : Be) (r1 r2 : Req) (p1 p2 : Str) (h1 h2 : Headers)
    (ck1 ck2 : List (String × String)) (ov1 ov2 : Option Nat) (k : Str)
    (hash : c1.hash = c2.hash) (hinj : ∀ x y, c1.hash x = c1.hash y → x = y)
    (hn1 : ';' ∉ c1.serverName.toList) (hn2 : ';' ∉ c2.serverName.toList)
    (f1 : serve c1 be r1 = .forward p1 h1 ck1 ov1 k) (f2 : serve c2 be r2 = .forward p2 h2 ck2 ov2 k) :
    c1.serverName = c2.serverName ∧ ov1 = ov2 ∧
    (Spec.proxyVersion be ov1 > 0 →
      c1.proxyHeader (Spec.proxyVersion be ov1) = c2.proxyHeader (Spec.proxyVersion be ov1)) := by
  have e1 := forward_key f1
  have e2 := forward_key f2
  rw [e1, ← hash] at e2
  obtain ⟨h3, h4, _, h5⟩ := poolKey_inj (hinj _ _ e2) hn1 hn2
  subst h4
  exact ⟨h3, rfl, h5⟩

/-- Non-vacuity: without the PROXY protocol two clients share a key, with it they do not. -/
example :
    let be : Be := { serverNames := ["a"], addresses := ["10.0.0.1:80"] }
    let c1 : Ctx := { serverName := "a", proxyHeader := fun _ => "PROXY 1".toList }
    let c2 : Ctx := { serverName := "a", proxyHeader := fun _ => "PROXY 2".toList }
    let key (c : Ctx) (be : Be) := match serve c be { host := "a" } with | .forward _ _ _ _ k => some k | _ => none
    c1.hash = c2.hash ∧ (∀ x y, c1.hash x = c1.hash y → x = y) ∧ key c1 be = some "a;".toList ∧ key c2 be = some "a;".toList ∧
    key c1 { be with proxyVersion := 1 } = some "a;;PROXY 1".toList ∧
    key c2 { be with proxyVersion := 1 } = some "a;;PROXY 2".toList := by
  refine ⟨rfl, fun _ _ h => h, rfl, rfl, rfl, rfl⟩

/-! ## C39 -/

/-- C39. A relayed response, other than one with status 421, has the header; a value that the
server set is kept; all other headers are unchanged. -/
theorem hsts (status : Nat) (h : Headers) :
    (status ≠ 421 → (modifyResponse status h).get "Strict-Transport-Security" ≠ []) ∧
    (h.get "Strict-Transport-Security" ≠ [] ∨ status = 421 → modifyResponse status h = h) ∧
    -- thirty days
    (h.get "Strict-Transport-Security" = [] → status ≠ 421 →
      (modifyResponse status h).values "Strict-Transport-Security" = ["max-age=2592000".toList]) ∧
    ∀ n, n ≠ "Strict-Transport-Security" → (modifyResponse status h).values n = h.values n := by
  unfold modifyResponse
  refine ⟨?_, ?_, ?_, ?_⟩
  · intro hs
    by_cases hg : h.get "Strict-Transport-Security" = []
    · rw [if_pos ⟨hs, hg⟩, get_eq, values_set_self]; decide
    · rw [if_neg (by simp [hg])]; exact hg
  · rintro (hg | hs)
    · rw [if_neg (by simp [hg])]
    · rw [if_neg (by simp [hs])]
  · intro hg hs
    rw [if_pos ⟨hs, hg⟩, values_set_self]
  · intro n hn
    split
    · exact values_set_ne _ _ hn
    · rfl

end Verif.Http
