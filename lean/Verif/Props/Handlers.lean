import Verif.Props.Sso
/-
C33, C37, C38: misdirected requests, path overrides, local endpoints.
-/
namespace Verif.Http

open Verif.Path (Str pathClean)

/-! ## How `serve` ends -/

/-- A request that gets past authentication, endpoints and policy. -/
def Passed (c : Ctx) (be : Be) (r : Req) (a : Authed) (ck : List (String × String)) : Prop :=
  authenticate c be r = .ok a ∧ localEndpoints c be r a.claims = .ok ck

theorem authenticate_error' {c : Ctx} {be : Be} {r : Req} {o : Out}
    (h : authenticate c be r = .error o) : o = .setID ∨ o = .error500 := by
  unfold authenticate at h
  dsimp only at h
  split at h
  · cases h
  · split at h
    · cases h; exact .inr rfl
    · cases h; exact .inl rfl
    · cases h
    · split at h
      · cases h
      · split at h <;> cases h

theorem enforce_error' {c : Ctx} {be : Be} {r : Req} {cl : Option Claims} {o : Out}
    (h : enforce c be r cl = .error o) : o = .login ∨ o = .denied := by
  unfold enforce at h
  split at h
  · cases h
  · rename_i s _
    split at h
    · cases h
    · split at h
      · cases h; exact .inl rfl
      · cases ha : s.acl with
        | none => rw [ha] at h; cases h
        | some l =>
          rw [ha] at h
          dsimp only at h
          rw [apply_ite (· = Except.error o)] at h
          simp only [Except.error.injEq, reduceCtorEq, if_false_right] at h
          exact .inr h.2.symm

theorem localEndpoints_error {c : Ctx} {be : Be} {r : Req} {cl : Option Claims} {o : Out}
    (h : localEndpoints c be r cl = .error o) :
    o = .login ∨ o = .denied ∨ (∃ p, o = .redirect p) ∨
      ∃ hd, o = .endpoint hd ∧ pathClean r.path = r.path ∧
        be.handlers.find? (fun h => h.matches (c.hostFromReq r.host) r.path) = some hd := by
  unfold localEndpoints at h
  dsimp only at h
  split at h
  · rename_i hd hf
    split at h
    · rename_i o' ho
      cases h
      split at ho
      · cases ho
      · rcases enforce_error' ho with h | h
        · exact .inl h
        · exact .inr (.inl h)
    · split at h
      · cases h; exact .inr (.inr (.inl ⟨_, rfl⟩))
      · rename_i heq
        cases h
        have he := Classical.not_not.mp heq
        rw [he] at hf
        exact .inr (.inr (.inr ⟨hd, rfl, he, hf⟩))
  · split at h
    · rename_i o' ho
      cases h
      rcases enforce_error' ho with h | h
      · exact .inl h
      · exact .inr (.inl h)
    · split at h
      · cases h; exact .inr (.inr (.inl ⟨_, rfl⟩))
      · cases h

/-- The host a request is for: its Host header, or the server name of the connection if that is
empty. -/
def Spec.target (c : Ctx) (r : Req) : String := if r.host = "" then c.serverName else r.host

/-- The settings used for a forwarded request: override, PROXY version, path sanitising,
configured headers. -/
inductive Sel (be : Be) : Choice → Option Nat → Nat → Option Bool → List (String × String) → Prop
  | own : Sel be .none none be.proxyVersion be.sanitize be.headers
  | override (i o) : Sel be (.addresses i o) (some i) o.proxyVersion (o.sanitize.or be.sanitize)
      (o.headers.getD be.headers)

/-- The ways `reverseProxy` can end. -/
inductive RP (c : Ctx) (be : Be) (r : Req) (h : Headers) (ck : List (String × String)) : Out → Prop
  | misdirected : c.hostname (Spec.target c r) ∉ be.serverNames → RP c be r h ck .misdirected
  | busy : c.hostname (Spec.target c r) ∈ be.serverNames → RP c be r h ck .error500
  | redirect (p) : c.hostname (Spec.target c r) ∈ be.serverNames → RP c be r h ck (.redirect p)
  | overrideStatic (root pre) : c.hostname (Spec.target c r) ∈ be.serverNames →
      chooseOverride (pathClean r.path) 0 be.overrides = .static root pre →
      RP c be r h ck (.static (serveStatic c root pre r.method r.path).1
        (serveStatic c root pre r.method r.path).2)
  | ownStatic : c.hostname (Spec.target c r) ∈ be.serverNames → be.addresses = [] →
      (chooseOverride (pathClean r.path) 0 be.overrides = .none ∨
        ∃ i o, chooseOverride (pathClean r.path) 0 be.overrides = .addresses i o) →
      RP c be r h ck (.static (serveStatic c be.docRoot [] r.method r.path).1
        (serveStatic c be.docRoot [] r.method r.path).2)
  | loop : c.hostname (Spec.target c r) ∈ be.serverNames →
      via c.me r.proto ((h.set "Host" (Spec.target c r).toList).get viaHeader) = none →
      RP c be r h ck .loop
  | forward (ov ver san hdrs v) : c.hostname (Spec.target c r) ∈ be.serverNames →
      be.addresses ≠ [] →
      Sel be (chooseOverride (pathClean r.path) 0 be.overrides) ov ver san hdrs →
      via c.me r.proto ((h.set "Host" (Spec.target c r).toList).get viaHeader) = some v →
      RP c be r h ck (.forward (if san.getD true then pathClean r.path else r.path)
        (reverseProxyHeaders c be (setHeaders c hdrs
          ((h.set "Host" (Spec.target c r).toList).set viaHeader v))) ck ov (c.hash (poolKey c ov ver)))

theorem reverseProxy_inv (c : Ctx) (be : Be) (r : Req) (h : Headers) (ck : List (String × String)) :
    RP c be r h ck (reverseProxy c be r h ck) := by
  unfold reverseProxy
  dsimp only
  have ht : (if r.host = "" then c.serverName else r.host) = Spec.target c r := rfl
  rw [ht]
  by_cases hm : c.hostname (Spec.target c r) ∈ be.serverNames
  · rw [if_neg (by simpa using hm)]
    split
    · exact .busy hm
    · cases hch : chooseOverride (pathClean r.path) 0 be.overrides with
      | redirect p => exact .redirect p hm
      | static x y => exact .overrideStatic x y hm hch
      | none =>
        dsimp only
        split
        · rename_i ha; exact .ownStatic hm ha (.inl hch)
        · rename_i ha
          split
          · rename_i hv; exact .loop hm hv
          · rename_i v hv; exact .forward none _ _ _ v hm ha (by rw [hch]; exact .own) hv
      | addresses i o =>
        dsimp only
        split
        · rename_i ha; exact .ownStatic hm ha (.inr ⟨i, o, hch⟩)
        · rename_i ha
          split
          · rename_i hv; exact .loop hm hv
          · rename_i v hv; exact .forward (some i) _ _ _ v hm ha (by rw [hch]; exact .override i o) hv
  · rw [if_pos hm]; exact .misdirected hm

/-- A request that is forwarded or answered from files got through to the last stage. -/
theorem serve_last {c : Ctx} {be : Be} {r : Req}
    (h : (∃ p hs ck ov k, serve c be r = .forward p hs ck ov k) ∨
      (∃ s fs, serve c be r = .static s fs) ∨ serve c be r = .misdirected ∨ serve c be r = .loop) :
    ∃ a ck, Passed c be r a ck ∧
      serve c be r = if be.reverse then reverseProxy c be r a.headers ck
        else .static (serveStatic c be.docRoot [] r.method r.path).1
          (serveStatic c be.docRoot [] r.method r.path).2 := by
  unfold serve at h ⊢
  cases ha : authenticate c be r with
  | error o =>
    rw [ha] at h
    dsimp only at h
    rcases authenticate_error' ha with rfl | rfl <;> simp at h
  | ok a =>
    rw [ha] at h
    dsimp only at h ⊢
    cases hl : localEndpoints c be r a.claims with
    | error o =>
      rw [hl] at h
      dsimp only at h
      rcases localEndpoints_error hl with rfl | rfl | ⟨p, rfl⟩ | ⟨hd, rfl, _⟩ <;> simp at h
    | ok ck => exact ⟨a, ck, ⟨ha, hl⟩, rfl⟩

/-! ## C33 -/

/-- C33. A reverse proxy backend never forwards, and never answers from files, a request for a
host that is not one of its server names; such a request gets 421 unless it ends earlier. -/
theorem misdirected_not_forwarded (c : Ctx) (be : Be) (r : Req) (hrev : be.reverse = true)
    (hm : c.hostname (Spec.target c r) ∉ be.serverNames) :
    (∀ p hs ck ov k, serve c be r ≠ .forward p hs ck ov k) ∧
    (∀ s fs, serve c be r ≠ .static s fs) ∧
    (∀ a ck, Passed c be r a ck → serve c be r = .misdirected) := by
  have key : ∀ a ck, reverseProxy c be r a ck = .misdirected := by
    intro a ck
    have := reverseProxy_inv c be r a ck
    generalize reverseProxy c be r a ck = o at this
    cases this with
    | misdirected _ => rfl
    | _ => rename_i h1; exact absurd (by assumption) hm
  refine ⟨?_, ?_, ?_⟩
  · intro p hs ck ov k h
    obtain ⟨a, ck', _, h2⟩ := serve_last (.inl ⟨p, hs, ck, ov, k, h⟩)
    rw [hrev, if_pos rfl, key] at h2
    rw [h2] at h; cases h
  · intro s fs h
    obtain ⟨a, ck', _, h2⟩ := serve_last (.inr (.inl ⟨s, fs, h⟩))
    rw [hrev, if_pos rfl, key] at h2
    rw [h2] at h; cases h
  · intro a ck hp
    unfold serve
    rw [hp.1]
    dsimp only
    rw [hp.2]
    dsimp only
    rw [hrev, if_pos rfl, key]

/-- Conversely, 421 is only used for such requests. -/
theorem misdirected_only (c : Ctx) (be : Be) (r : Req) (h : serve c be r = .misdirected) :
    be.reverse = true ∧ c.hostname (Spec.target c r) ∉ be.serverNames := by
  obtain ⟨a, ck, _, h2⟩ := serve_last (.inr (.inr (.inl h)))
  rw [h] at h2
  split at h2
  · rename_i hr
    refine ⟨hr, ?_⟩
    have := reverseProxy_inv c be r a.headers ck
    rw [← h2] at this
    cases this; assumption
  · cases h2

/-- Non-vacuity: a connection for a.example asks for b.example. -/
example :
    let c : Ctx := { serverName := "a.example" }
    let be : Be := { serverNames := ["a.example"], addresses := ["10.0.0.1:80"] }
    c.hostname (Spec.target c { host := "b.example" }) ∉ be.serverNames ∧
    (∃ a ck, Passed c be { host := "b.example" } a ck) ∧
    (match serve c be { host := "b.example" } with | .misdirected => True | _ => False) ∧
    (match serve c be { host := "a.example" } with | .forward .. => True | _ => False) := by
  refine ⟨by decide, ⟨_, _, rfl, rfl⟩, trivial, trivial⟩

/-- A request that has to wait for the rate limit in vain is not passed on and not redirected, and
gets no file. -/
theorem rate_limited (c : Ctx) (be : Be) (r : Req) (h : Headers) (ck : List (String × String))
    (hw : c.waitOK = false) :
    reverseProxy c be r h ck = .misdirected ∨ reverseProxy c be r h ck = .error500 := by
  unfold reverseProxy
  dsimp only
  generalize (if r.host = "" then c.serverName else r.host) = t
  by_cases hm : c.hostname t ∈ be.serverNames
  · rw [if_neg (by simpa using hm), if_pos (by simp [hw])]
    exact .inr rfl
  · rw [if_pos hm]
    exact .inl rfl

/-! ## C37 -/

/-- The override applies to the path. -/
def Spec.Applies (o : Override) (cleanPath : Str) : Prop := ∃ p ∈ o.paths, p <+: cleanPath

/-- `o` is the first override, at position `i`, that applies to the path. -/
def Spec.First (os : List Override) (cleanPath : Str) (i : Nat) (o : Override) : Prop :=
  os[i]? = some o ∧ Spec.Applies o cleanPath ∧ ∀ j o', j < i → os[j]? = some o' → ¬ Spec.Applies o' cleanPath

def Spec.NoneApplies (os : List Override) (cleanPath : Str) : Prop := ∀ o ∈ os, ¬ Spec.Applies o cleanPath

theorem matchPrefixes_none {q : Str} {ps : List Str} (h : matchPrefixes q ps = none) :
    ∀ p ∈ ps, ¬ p <+: q := by
  induction ps with
  | nil => intro p hp; cases hp
  | cons a t ih =>
    unfold matchPrefixes at h
    split at h
    · cases h
    · split at h
      · cases h
      · rename_i h1
        intro p hp
        rcases List.mem_cons.mp hp with rfl | hp
        · simpa using h1
        · exact ih h p hp

theorem matchPrefixes_some {q pre : Str} {ps : List Str} (h : matchPrefixes q ps = some (some pre)) :
    pre ∈ ps ∧ pre <+: q := by
  induction ps with
  | nil => cases h
  | cons a t ih =>
    unfold matchPrefixes at h
    split at h
    · cases h
    · split at h
      · rename_i h1; cases h; exact ⟨by simp, by simpa using h1⟩
      · exact ⟨List.mem_cons_of_mem _ (ih h).1, (ih h).2⟩

theorem choose_spec (q : Str) (os : List Override) : ∀ n,
    match chooseOverride q n os with
    | .none => Spec.NoneApplies os q
    | .redirect p => p = q ++ ['/'] ∧ ∃ o ∈ os, q ++ ['/'] ∈ o.paths
    | .static root pre => ∃ i o, Spec.First os q i o ∧ o.addresses = [] ∧ o.docRoot = root ∧
        pre ∈ o.paths ∧ pre <+: q
    | .addresses i o => ∃ j, i = n + j ∧ Spec.First os q j o ∧ o.addresses ≠ [] := by
  induction os with
  | nil => intro n; simp [chooseOverride, Spec.NoneApplies]
  | cons o t ih =>
    intro n
    unfold chooseOverride
    cases hm : matchPrefixes q o.paths with
    | none =>
      have hno : ¬ Spec.Applies o q := by
        rintro ⟨p, hp, hx⟩; exact matchPrefixes_none hm p hp hx
      have hstep : ∀ {i o'}, Spec.First t q i o' → Spec.First (o :: t) q (i + 1) o' := by
        rintro i o' ⟨h1, h2, h3⟩
        refine ⟨by simpa using h1, h2, ?_⟩
        intro j o'' hj ho
        cases j with
        | zero => simp at ho; subst ho; exact hno
        | succ j => exact h3 j o'' (by omega) (by simpa using ho)
      have := ih (n + 1)
      dsimp only
      cases hc : chooseOverride q (n + 1) t with
      | none =>
        rw [hc] at this
        intro o' ho'
        rcases List.mem_cons.mp ho' with rfl | ho'
        · exact hno
        · exact this o' ho'
      | redirect p =>
        rw [hc] at this
        obtain ⟨h1, o', h2, h3⟩ := this
        exact ⟨h1, o', List.mem_cons_of_mem _ h2, h3⟩
      | static root pre =>
        rw [hc] at this
        obtain ⟨i, o', h1, h2⟩ := this
        exact ⟨i + 1, o', hstep h1, h2⟩
      | addresses i o' =>
        rw [hc] at this
        obtain ⟨j, h1, h2, h3⟩ := this
        exact ⟨j + 1, by omega, hstep h2, h3⟩
    | some x =>
      cases x with
      | none =>
        dsimp only
        refine ⟨rfl, o, by simp, ?_⟩
        have : ∀ ps, matchPrefixes q ps = some none → q ++ ['/'] ∈ ps := by
          intro ps
          induction ps with
          | nil => intro h; cases h
          | cons a t ih =>
            intro h
            unfold matchPrefixes at h
            split at h
            · rename_i he; rw [he]; simp
            · split at h
              · cases h
              · exact List.mem_cons_of_mem _ (ih h)
        exact this _ hm
      | some pre =>
        have hs := matchPrefixes_some hm
        have hf : Spec.First (o :: t) q 0 o := ⟨rfl, ⟨pre, hs⟩, fun j _ hj => by omega⟩
        dsimp only
        by_cases h2 : o.addresses = []
        · rw [if_pos h2]
          exact ⟨0, o, hf, h2, rfl, hs⟩
        · rw [if_neg h2]
          exact ⟨0, rfl, hf, h2⟩

/-- C37, forwarded requests. A request that is forwarded goes to the addresses of the first
override that applies to its canonical path, or to the backend's own addresses if none applies. -/
theorem override_forward (c : Ctx) (be : Be) (r : Req) (p : Str) (hs : Headers)
    (ck : List (String × String)) (ov : Option Nat) (k : Str)
    (h : serve c be r = .forward p hs ck ov k) :
    (∃ i o, ov = some i ∧ Spec.First be.overrides (Verif.Path.Spec.clean r.path) i o ∧ o.addresses ≠ []) ∨
    (ov = none ∧ Spec.NoneApplies be.overrides (Verif.Path.Spec.clean r.path) ∧ be.addresses ≠ []) := by
  obtain ⟨a, ck', _, h2⟩ := serve_last (.inl ⟨p, hs, ck, ov, k, h⟩)
  rw [h] at h2
  split at h2
  · have hrp := reverseProxy_inv c be r a.headers ck'
    rw [← h2] at hrp
    rw [← Verif.Path.pathClean_canonical]
    have hc := choose_spec (pathClean r.path) be.overrides 0
    cases hrp with
    | forward _ ver san hdrs v hm ha hsel hv =>
      generalize chooseOverride (pathClean r.path) 0 be.overrides = ch at hc hsel
      cases hsel with
      | own => exact .inr ⟨rfl, hc, ha⟩
      | override i o =>
        obtain ⟨j, rfl, h3, h4⟩ := hc
        exact .inl ⟨0 + j, o, rfl, by simpa using h3, h4⟩
  · cases h2

/-- C37, files. If the backend has addresses, files are served only below the document root of
the first override that applies, and only when this override has no addresses. (A backend
without addresses is the subject of `override_no_addresses_violated`.) -/
theorem override_static_partial (c : Ctx) (be : Be) (r : Req) (s : StaticRes) (fs : List Str)
    (hrev : be.reverse = true)
    (hadr : be.addresses ≠ [] ∨ ∀ o ∈ be.overrides, o.addresses = [])
    (h : serve c be r = .static s fs) :
    (∃ i o pre, Spec.First be.overrides (Verif.Path.Spec.clean r.path) i o ∧ o.addresses = [] ∧
      pre ∈ o.paths ∧ pre <+: Verif.Path.Spec.clean r.path ∧
      (s, fs) = serveStatic c o.docRoot pre r.method r.path) ∨
    (Spec.NoneApplies be.overrides (Verif.Path.Spec.clean r.path) ∧ be.addresses = [] ∧
      (s, fs) = serveStatic c be.docRoot [] r.method r.path) := by
  obtain ⟨a, ck', _, h2⟩ := serve_last (.inr (.inl ⟨s, fs, h⟩))
  rw [h, hrev, if_pos rfl] at h2
  have hrp := reverseProxy_inv c be r a.headers ck'
  rw [← h2] at hrp
  rw [← Verif.Path.pathClean_canonical]
  have hc := choose_spec (pathClean r.path) be.overrides 0
  cases hrp with
  | overrideStatic root pre hm hch =>
    rw [hch] at hc
    obtain ⟨i, o, h3, h4, rfl, h5⟩ := hc
    exact .inl ⟨i, o, pre, h3, h4, h5.1, h5.2, rfl⟩
  | ownStatic hm ha hch =>
    rcases hch with hch | ⟨i, o, hch⟩
    · rw [hch] at hc; exact .inr ⟨hc, ha, rfl⟩
    · rw [hch] at hc
      obtain ⟨j, _, h3, h4⟩ := hc
      rcases hadr with h5 | h5
      · exact absurd ha h5
      · exact absurd (h5 o (List.mem_of_getElem? h3.1)) h4

/-- C37 fails for a backend with a document root and an override with addresses: requests under
the override are answered from the backend's own files. -/
theorem override_no_addresses_violated :
    ∃ (c : Ctx) (be : Be) (r : Req) (i : Nat) (o : Override),
      Spec.First be.overrides (Verif.Path.Spec.clean r.path) i o ∧ o.addresses ≠ [] ∧
      serve c be r = .static (.served "/www/api/x".toList) ["/www/api/x".toList] := by
  refine ⟨{ stat := fun f => if f = "/www/api/x".toList then some .regular else none },
    { serverNames := ["a"], docRoot := "/www".toList,
      overrides := [{ paths := ["/api/".toList], addresses := ["10.0.0.1:80"] }] },
    { host := "a", path := "/api/x".toList }, 0,
    { paths := ["/api/".toList], addresses := ["10.0.0.1:80"] }, ?_, by simp, rfl⟩
  exact ⟨rfl, ⟨"/api/".toList, by simp, ⟨"x".toList, by decide⟩⟩, fun j _ hj => by omega⟩

/-- Non-vacuity of `override_forward` and `override_static_partial`. -/
example :
    let be : Be := { serverNames := ["a"], addresses := ["10.0.0.1:80"]
                     overrides := [{ paths := ["/api/".toList], addresses := ["10.0.0.2:80"] },
                                   { paths := ["/".toList, "/f/".toList], docRoot := "/www".toList }] }
    (match serve {} be { host := "a", path := "/f/../api/x".toList } with
      | .forward p _ _ ov _ => p = "/api/x".toList ∧ ov = some 0
      | _ => False) ∧
    (match serve {} be { host := "a", path := "/f/x".toList } with
      | .static s _ => s = .notFound
      | _ => False) := by
  refine ⟨⟨rfl, rfl⟩, rfl⟩

/-! ## C23 through the handlers -/

/-- C23 for the handlers as a whole: every file that any request makes a backend open lies below
its document root or that of one of its overrides. -/
theorem static_serve_confined (c : Ctx) (be : Be) (r : Req) (s : StaticRes) (fs : List Str)
    (hroot : ∀ root ∈ be.docRoot :: be.overrides.map (·.docRoot), root = [] ∨ ∃ t, root = '/' :: t)
    (h : serve c be r = .static s fs) :
    ∀ f ∈ fs, ∃ root ∈ be.docRoot :: be.overrides.map (·.docRoot),
      root ≠ [] ∧ ∃ segs, (∀ x ∈ segs, Spec.Visible x) ∧ f = Spec.fileIn root segs := by
  have key : ∀ root ∈ be.docRoot :: be.overrides.map (·.docRoot), ∀ pre,
      fs = (serveStatic c root pre r.method r.path).2 →
      ∀ f ∈ fs, ∃ root ∈ be.docRoot :: be.overrides.map (·.docRoot),
        root ≠ [] ∧ ∃ segs, (∀ x ∈ segs, Spec.Visible x) ∧ f = Spec.fileIn root segs := by
    intro root hr pre hfs f hf
    have hc := static_confined c root pre r.method r.path (hroot root hr)
    rw [hfs] at hf
    have hne : (serveStatic c root pre r.method r.path).2 ≠ [] := by intro e; rw [e] at hf; cases hf
    exact ⟨root, hr, (hc.2.1 hne).1, hc.1 f hf⟩
  obtain ⟨a, ck', _, h2⟩ := serve_last (.inr (.inl ⟨s, fs, h⟩))
  rw [h] at h2
  split at h2
  · have hrp := reverseProxy_inv c be r a.headers ck'
    rw [← h2] at hrp
    have hc := choose_spec (pathClean r.path) be.overrides 0
    cases hrp with
    | overrideStatic root pre hm hch =>
      rw [hch] at hc
      obtain ⟨i, o, h3, _, h4, _⟩ := hc
      refine key root ?_ pre rfl
      rw [← h4]
      exact List.mem_cons_of_mem _ (List.mem_map.mpr ⟨o, List.mem_of_getElem? h3.1, rfl⟩)
    | ownStatic hm ha hch => exact key be.docRoot (by simp) [] rfl
  · cases h2
    exact key be.docRoot (by simp) [] rfl

/-! ## C38 -/

/-- proxy.go:837-849: the order of the local endpoints. Lengths are in bytes in the code. -/
def Handler.less (a b : Handler) : Bool :=
  if a.host = b.host then a.path.length > b.path.length
  else if a.host.length ≠ b.host.length then a.host.length > b.host.length
  else a.host < b.host

/-- `l` is a result of sorting: no element is less than an earlier one. `sort.Slice` gives some
such permutation. -/
def Sorted (l : List Handler) : Prop := l.Pairwise fun a b => ¬ b.less a

/-- Specification: a local endpoint covers a host and a path if it is for that host or for all
hosts, and for that very path or, when it takes sub-paths, for a path below it. -/
def Spec.Covers (h : Handler) (host : String) (path : Str) : Prop :=
  (h.host = "" ∨ h.host = host) ∧
  (path = h.path ∨ h.matchPrefix = true ∧ ∃ rest, path = h.path ++ '/' :: rest)

theorem matches_iff (h : Handler) (host : String) (path : Str) :
    h.matches host path = true ↔ Spec.Covers h host path := by
  unfold Handler.matches Spec.Covers
  rw [decide_eq_true_iff, List.isPrefixOf_iff_prefix]
  refine and_congr Iff.rfl (or_congr eq_comm (and_congr Iff.rfl ?_))
  constructor
  · rintro ⟨t, ht⟩; exact ⟨t, by rw [← ht]; simp⟩
  · rintro ⟨t, ht⟩; exact ⟨t, by rw [ht]; simp⟩

/-- C38. Of the local endpoints that match a request, the one chosen is for the request's host if
there is one, and no matching endpoint for the same host has a longer path. It is served
without the policy only if it is public. -/
theorem endpoint_most_specific (c : Ctx) (be : Be) (r : Req) (h : Handler)
    (hs : Sorted be.handlers) (hserve : serve c be r = .endpoint h) :
    h ∈ be.handlers ∧ Spec.Covers h (c.hostFromReq r.host) r.path ∧
    (∀ h' ∈ be.handlers, Spec.Covers h' (c.hostFromReq r.host) r.path →
      (h'.host ≠ "" → h.host = h'.host) ∧
      (h'.host = h.host → h'.path.length ≤ h.path.length)) ∧
    (h.bypass = false → ∃ a ck, authenticate c be r = .ok a ∧ enforce c be r a.claims = .ok ck) := by
  have hfind : be.handlers.find? (fun h => h.matches (c.hostFromReq r.host) r.path) = some h := by
    unfold serve at hserve
    cases ha : authenticate c be r with
    | error o =>
      rw [ha] at hserve; dsimp only at hserve
      rcases authenticate_error' ha with rfl | rfl <;> cases hserve
    | ok a =>
      rw [ha] at hserve; dsimp only at hserve
      cases hl : localEndpoints c be r a.claims with
      | error o =>
        rw [hl] at hserve; dsimp only at hserve
        rcases localEndpoints_error hl with rfl | rfl | ⟨p, rfl⟩ | ⟨hd, rfl, _, hf⟩
        · cases hserve
        · cases hserve
        · cases hserve
        · cases hserve; exact hf
      | ok ck =>
        rw [hl] at hserve; dsimp only at hserve
        split at hserve
        · have hrp := reverseProxy_inv c be r a.headers ck
          rw [hserve] at hrp
          cases hrp
        · cases hserve
  have hmem := List.mem_of_find?_eq_some hfind
  have hmat : h.matches (c.hostFromReq r.host) r.path = true := by
    have := List.find?_some hfind; simpa using this
  refine ⟨hmem, (matches_iff _ _ _).mp hmat, ?_, ?_⟩
  · intro h' hm' hmat'
    rw [← matches_iff] at hmat'
    obtain ⟨_, pre, post, hsplit, hpre⟩ := List.find?_eq_some_iff_append.mp hfind
    have hle : h' = h ∨ ¬ h'.less h := by
      rw [hsplit] at hm' hs
      rcases List.mem_append.mp hm' with h1 | h1
      · have := hpre h' h1; simp [hmat'] at this
      · rcases List.mem_cons.mp h1 with h1 | h1
        · exact .inl h1
        · right
          exact (List.pairwise_cons.mp (List.pairwise_append.mp hs).2.1).1 h' h1
    rcases hle with rfl | hle
    · exact ⟨fun _ => rfl, fun _ => Nat.le_refl _⟩
    · have hh : h.host = "" ∨ h.host = c.hostFromReq r.host := by
        simp only [Handler.matches, decide_eq_true_eq] at hmat; exact hmat.1
      have hh' : h'.host = "" ∨ h'.host = c.hostFromReq r.host := by
        simp only [Handler.matches, decide_eq_true_eq] at hmat'; exact hmat'.1
      constructor
      · intro hne
        rcases hh with h0 | h0
        · exfalso; apply hle
          unfold Handler.less
          rw [if_neg (by rw [h0]; exact hne), if_pos]
          · rw [h0]
            simp only [String.length_empty, gt_iff_lt, decide_eq_true_eq]
            rcases Nat.eq_zero_or_pos h'.host.length with hz | hz
            · exact absurd (String.length_eq_zero_iff.mp hz) hne
            · exact hz
          · rw [h0]
            intro hz
            exact hne (String.length_eq_zero_iff.mp hz)
        · rcases hh' with h1 | h1
          · exact absurd h1 hne
          · rw [h0, h1]
      · intro he
        unfold Handler.less at hle
        rw [if_pos he] at hle
        simpa using hle
  · intro hb
    exact serve_protected (by rw [hserve]; exact hb)

/-- C38. A request whose canonical path is covered by a local endpoint never reaches a backend
server or the files: it is answered by an endpoint, redirected, or refused. -/
theorem endpoint_not_forwarded (c : Ctx) (be : Be) (r : Req)
    (hcov : ∃ h ∈ be.handlers, Spec.Covers h (c.hostFromReq r.host) (Verif.Path.Spec.clean r.path)) :
    (∀ p hs ck ov k, serve c be r ≠ .forward p hs ck ov k) ∧
    (∀ s fs, serve c be r ≠ .static s fs) ∧ serve c be r ≠ .misdirected ∧ serve c be r ≠ .loop := by
  have key : ∀ cl ck, localEndpoints c be r cl ≠ .ok ck := by
    intro cl ck h
    obtain ⟨hd, hm, hc⟩ := hcov
    rw [← matches_iff, ← Verif.Path.pathClean_canonical] at hc
    unfold localEndpoints at h
    dsimp only at h
    split at h
    · split at h
      · cases h
      · split at h <;> cases h
    · rename_i hf
      have := List.find?_eq_none.mp hf hd hm
      exact this hc
  refine ⟨?_, ?_, ?_, ?_⟩
  · intro p hs ck ov k h
    obtain ⟨a, ck', h1, _⟩ := serve_last (.inl ⟨p, hs, ck, ov, k, h⟩)
    exact key _ _ h1.2
  · intro s fs h
    obtain ⟨a, ck', h1, _⟩ := serve_last (.inr (.inl ⟨s, fs, h⟩))
    exact key _ _ h1.2
  · intro h
    obtain ⟨a, ck', h1, _⟩ := serve_last (.inr (.inr (.inl h)))
    exact key _ _ h1.2
  · intro h
    obtain ⟨a, ck', h1, _⟩ := serve_last (.inr (.inr (.inr h)))
    exact key _ _ h1.2

/-! ## C42: the ID token cookie -/

/-- C42. Where the backend issues ID tokens, a request that is identified by its login cookie gets
an answer other than an error, or the redirect that sets the ID token, only if it came with an
ID token cookie of this login. The redirect is sent exactly if the ID token could be made, so that the browser does
not come back without it for that reason. -/
theorem id_token_current (c : Ctx) (be : Be) (r : Req) (s : SSO) (hs : be.sso = some s)
    (hg : s.genID = true) (hhost : c.hostFromReq r.host ∈ be.serverNames)
    (hb : r.creds.bearer = none) (cl : Claims) (hcl : r.creds.authCookie = some cl)
    (he : ∃ e, cl.email = some e ∧ e ≠ []) (hid : r.creds.idCookieOK = false) :
    (r.creds.setIDOK = true → serve c be r = .setID) ∧ (r.creds.setIDOK = false → serve c be r = .error500) := by
  obtain ⟨e, he, hne⟩ := he
  unfold serve authenticate checkCookies
  simp only [hs, hb, hcl, he, hg, hid]
  cases hk : r.creds.setIDOK <;> simp [hne, hhost]

/-- Non-vacuity of `id_token_current` and `endpoint_not_forwarded`. -/
example :
    let be : Be := { sso := some { genID := true }, serverNames := ["a"], addresses := ["10.0.0.1:80"]
                     handlers := [{ path := "/x".toList, matchPrefix := true, id := 2 }] }
    let cl : Claims := { email := some "u@e".toList }
    (match serve {} be { host := "a", creds := { authCookie := some cl } } with
      | .setID => True | _ => False) ∧
    (match serve {} be { host := "a", path := "/x/../xy".toList, creds := { authCookie := some cl, idCookieOK := true } } with
      | .forward p .. => p = "/xy".toList | _ => False) ∧
    (match serve {} be { host := "a", path := "/y/../x/z".toList, creds := { authCookie := some cl, idCookieOK := true } } with
      | .redirect p => p = "/x/z".toList | _ => False) := by
  refine ⟨trivial, rfl, rfl⟩

/-- Non-vacuity: four endpoints in sorted order; the host-specific one wins over the longer
generic one, and the longer one among those of the host. -/
example :
    let hs : List Handler :=
      [{ host := "a.example", path := "/x/y".toList, id := 1 },
       { host := "a.example", path := "/x".toList, matchPrefix := true, id := 2 },
       { path := "/x/y/z".toList, id := 3 }, { path := "/".toList, bypass := true, id := 4 }]
    let be : Be := { handlers := hs }
    Sorted hs ∧
    (match serve {} be { host := "a.example", path := "/x/y".toList } with | .endpoint h => h.id = 1 | _ => False) ∧
    (match serve {} be { host := "a.example", path := "/x/y/z".toList } with | .endpoint h => h.id = 2 | _ => False) ∧
    (match serve {} be { host := "b.example", path := "/x/y/z".toList } with | .endpoint h => h.id = 3 | _ => False) := by
  refine ⟨?_, rfl, rfl, rfl⟩
  simp [Sorted, Handler.less]
  decide

end Verif.Http
