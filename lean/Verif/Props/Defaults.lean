/-
C158: a setting that is left out means what the documentation says.
-/
import Verif.Model.Defaults

namespace Verif.Defaults

/-! ## Specification: the documented defaults (config.go:108-110, 139-141, 257-276, 343-349,
358-364, 387-416, 487-490, 659-664) -/

/-- `b` is `a`, or `a` is left out and `b` is the documented default. -/
def Spec.Out {α : Type} (leftOut : α) (documented : α) (a b : α) : Prop :=
  b = a ∨ (a = leftOut ∧ b = documented)

/-- Two lists have the same length and related elements. -/
inductive Spec.All2 {α : Type} (R : α → α → Prop) : List α → List α → Prop
  | nil : Spec.All2 R [] []
  | cons {a b : α} {l m : List α} : R a b → Spec.All2 R l m → Spec.All2 R (a :: l) (b :: m)

/-- The names of modes are read without regard to case. -/
def Spec.named (m : String) (n : List String) : Prop := m.toUpper ∈ n

/-- config.go:257-261: the documented default of `alpnProtos`; nothing is said about other
modes when QUIC is enabled. -/
def Spec.alpn (quic : Bool) (m : String) (l : List String) : Prop :=
  (quic = false ∧ l = ["h2", "http/1.1"]) ∨
  (quic = true ∧ Spec.named m ["HTTP", "HTTPS", "QUIC", "LOCAL", "CONSOLE"] ∧
    l = ["h3", "h2", "http/1.1"])

/-- Nanoseconds. -/
def Spec.seconds (n : Int) : Int := n * 1000000000

/-- In the override `p` some settings that `o` leaves out are written as documented. -/
structure Spec.OverrideOut (o p : Override) : Prop where
  mode : p.mode = o.mode
  proto : p.backendProto = o.backendProto
  timeout : Spec.Out 0 (Spec.seconds 30) o.forwardTimeout p.forwardTimeout
  version : p.proxyProtocolVersion = o.proxyProtocolVersion
  sanitize : p.sanitizePath = o.sanitizePath

/-- In the backend `b'` some settings that `b` leaves out are written as documented. -/
structure Spec.BackendOut (quic : Bool) (b b' : Backend) : Prop where
  mode : Spec.Out "" "PLAINTEXT" b.mode b'.mode
  alpn : b'.alpnProtos = b.alpnProtos ∨
    (b.alpnProtos = none ∧ ∃ l, Spec.alpn quic b.mode l ∧ b'.alpnProtos = some l)
  proto : b'.backendProto = b.backendProto ∨
    (Spec.named b.mode ["HTTP", "HTTPS"] ∧ b.backendProto = none ∧
      b'.backendProto = some "http/1.1")
  rate : Spec.Out 0 5 b.forwardRateLimit b'.forwardRateLimit
  timeout : Spec.Out 0 (Spec.seconds 30) b.forwardTimeout b'.forwardTimeout
  version : b'.proxyProtocolVersion = b.proxyProtocolVersion
  sanitize : Spec.Out none (some true) b.sanitizePath b'.sanitizePath
  server : Spec.Out none (some true) b.serverClose b'.serverClose
  client : Spec.Out none (some false) b.clientClose b'.clientClose
  half : Spec.Out none (some (Spec.seconds 60)) b.halfClose b'.halfClose
  overrides : Spec.All2 Spec.OverrideOut b.overrides b'.overrides

/-- In the configuration `c'` some settings that `c` leaves out are written as documented. -/
structure Spec.SettingsOut (compiled : Bool) (c c' : Settings) : Prop where
  quic : Spec.Out none (some compiled) c.enableQUIC c'.enableQUIC
  revoke : Spec.Out none (some true) c.revokeUnused c'.revokeUnused
  scopes : Spec.All2 (Spec.Out [] ["openid", "email"]) c.scopes c'.scopes
  backends : Spec.All2
    (Spec.BackendOut (match c.enableQUIC with | some q => q | none => compiled))
    c.backends c'.backends

/-- The excuse: in mode QUIC `serverCloseEndsConnection` stays as it is. -/
def Spec.Kept (b b' : Backend) : Prop :=
  Spec.named b.mode ["QUIC"] → b'.serverClose = b.serverClose

/-! ## Lemmas -/

/-- Two outcomes are the same error, or related results. -/
def Res {ε α : Type} (R : α → α → Prop) : Except ε α → Except ε α → Prop
  | .error e, .error f => e = f
  | .ok a, .ok b => R a b
  | _, _ => False

theorem mapM_res {ε α β : Type} {R : α → α → Prop} {T : β → β → Prop}
    (f g : α → Except ε β) (hf : ∀ a b, R a b → Res T (f a) (g b)) :
    ∀ l m, Spec.All2 R l m → Res (Spec.All2 T) (l.mapM f) (m.mapM g) := by
  intro l m h
  induction h with
  | nil => exact Spec.All2.nil
  | @cons a b l m hab _ ih =>
    rw [List.mapM_cons, List.mapM_cons]
    have h1 := hf a b hab
    cases hfa : f a <;> cases hgb : g b <;> rw [hfa, hgb] at h1
    · exact h1
    · exact h1.elim
    · exact h1.elim
    · cases hl : l.mapM f <;> cases hm : m.mapM g <;> rw [hl, hm] at ih
      · exact ih
      · exact ih.elim
      · exact ih.elim
      · exact Spec.All2.cons h1 ih

theorem all2_and {α : Type} {R T : α → α → Prop} :
    ∀ {l m : List α}, Spec.All2 R l m → Spec.All2 T l m → Spec.All2 (fun a b => R a b ∧ T a b) l m
  | _, _, .nil, _ => .nil
  | _, _, .cons h t, .cons h' t' => .cons ⟨h, h'⟩ (all2_and t t')

theorem all2_map {α β : Type} {R : α → α → Prop} (f : α → β) (hf : ∀ a b, R a b → f a = f b) :
    ∀ {l m : List α}, Spec.All2 R l m → l.map f = m.map f
  | _, _, .nil => rfl
  | _, _, .cons h t => by rw [List.map_cons, List.map_cons, hf _ _ h, all2_map f hf t]

theorem all2_eq {α : Type} {l m : List α} (h : Spec.All2 (fun a b => a = b) l m) : l = m := by
  have := all2_map (R := fun a b : α => a = b) id (fun _ _ h => h) h
  simpa using this

theorem all2_nil {α : Type} {R : α → α → Prop} {l m : List α} (h : Spec.All2 R l m) :
    l = [] ↔ m = [] := by
  cases h <;> simp

theorem out_getD {α : Type} {d : α} {a b : Option α} (h : Spec.Out none (some d) a b) :
    b.getD d = a.getD d := by
  rcases h with h | ⟨h, h'⟩
  · rw [h]
  · rw [h, h']; rfl

theorem out_timeout {a b : Int} (h : Spec.Out 0 (Spec.seconds 30) a b) :
    timeoutOf b = timeoutOf a := by
  rcases h with h | ⟨h, h'⟩
  · rw [h]
  · rw [h, h']; rfl

theorem out_rate {a b : Int} (h : Spec.Out 0 5 a b) : rateOf b = rateOf a := by
  rcases h with h | ⟨h, h'⟩
  · rw [h]
  · rw [h, h']; rfl

theorem out_mode {a b : String} (h : Spec.Out "" "PLAINTEXT" a b) : modeOf b = modeOf a := by
  rcases h with h | ⟨h, h'⟩
  · rw [h]
  · rw [h, h']; decide +kernel

theorem modeOf_named {m n : String} (h : m.toUpper = n) (h1 : n ≠ "") (h2 : n ≠ "PLAINTEXT") :
    modeOf m = n := by
  unfold modeOf
  rw [h, if_neg (by simp [h1, h2])]

/-- What two backends share that differ by defaults, after the first loop. -/
structure Filled (b b' : Backend) : Prop where
  mode : b'.mode = b.mode
  alpn : b'.alpnProtos = b.alpnProtos
  proto : b'.backendProto.getD "http/1.1" = b.backendProto.getD "http/1.1"
  rate : rateOf b'.forwardRateLimit = rateOf b.forwardRateLimit
  timeout : timeoutOf b'.forwardTimeout = timeoutOf b.forwardTimeout
  version : b'.proxyProtocolVersion = b.proxyProtocolVersion
  sanitize : b'.sanitizePath.getD true = b.sanitizePath.getD true
  ends : ends b' = ends b
  overrides : Spec.All2 Spec.OverrideOut b.overrides b'.overrides

theorem alpn_same {quic : Bool} {b b' : Backend} (h : Spec.BackendOut quic b b') :
    alpnOf quic (modeOf b.mode) b'.alpnProtos = alpnOf quic (modeOf b.mode) b.alpnProtos := by
  rcases h.alpn with h1 | ⟨h1, l, h2, h3⟩
  · rw [h1]
  · rw [h1, h3]
    rcases h2 with ⟨hq, hl⟩ | ⟨hq, hm, hl⟩
    · rw [hq, hl]; simp [alpnOf]
    · rw [hq, hl]
      simp only [Spec.named, List.mem_cons, List.not_mem_nil, or_false] at hm
      rcases hm with hm | hm | hm | hm | hm <;>
        (rw [modeOf_named hm (by decide) (by decide)]; decide +kernel)

theorem close_getD (m : String) (d : Bool) (v : Option Bool) (hm : m ≠ "QUIC" ∨ d = false) :
    (closeOf m v).getD d = v.getD d := by
  unfold closeOf
  split
  case isTrue h =>
    rcases hm with hm | hm
    · exact absurd h.1 hm
    · rw [h.2, hm]; rfl
  case isFalse => rfl

theorem modeOf_quic {m : String} (h : modeOf m = "QUIC") : m.toUpper = "QUIC" := by
  unfold modeOf at h
  split at h
  · exact absurd h (by decide)
  · exact h

theorem fill_res (quic : Bool) (b b' : Backend) (h : Spec.BackendOut quic b b')
    (hk : Spec.Kept b b') : Res Filled (fill quic b) (fill quic b') := by
  have hm := out_mode h.mode
  unfold fill
  dsimp only
  rw [hm]
  by_cases h1 : modeOf b.mode ∉ Config.validModes
  · rw [if_pos h1, if_pos h1]; rfl
  rw [if_neg h1, if_neg h1]
  have hp : (b'.backendProto ≠ none ∧ isHttp (modeOf b.mode) = false) ↔
      (b.backendProto ≠ none ∧ isHttp (modeOf b.mode) = false) := by
    rcases h.proto with h2 | ⟨h2, h3, h4⟩
    · rw [h2]
    · have : isHttp (modeOf b.mode) = true := by
        simp only [Spec.named, List.mem_cons, List.not_mem_nil, or_false] at h2
        rcases h2 with h2 | h2 <;>
          (rw [modeOf_named h2 (by decide) (by decide)]; decide +kernel)
      simp [this]
  by_cases h2 : b.backendProto ≠ none ∧ isHttp (modeOf b.mode) = false
  · rw [if_pos h2, if_pos (hp.2 h2)]; rfl
  rw [if_neg h2, if_neg (fun x => h2 (hp.1 x))]
  refine ⟨rfl, ?_, ?_, out_rate h.rate, out_timeout h.timeout, h.version, out_getD h.sanitize, ?_,
    h.overrides⟩
  · show some _ = some _
    rw [alpn_same h]
  · rcases h.proto with h3 | ⟨_, h3, h4⟩
    · show b'.backendProto.getD _ = _
      rw [h3]
    · show b'.backendProto.getD _ = b.backendProto.getD _
      rw [h3, h4]; rfl
  · have e1 : (closeOf (modeOf b.mode) b'.serverClose).getD true
        = (closeOf (modeOf b.mode) b.serverClose).getD true := by
      by_cases hq : modeOf b.mode = "QUIC"
      · rw [hk (by simp [Spec.named, modeOf_quic hq])]
      · rw [close_getD _ _ _ (.inl hq), close_getD _ _ _ (.inl hq), out_getD h.server]
    have e2 : (closeOf (modeOf b.mode) b'.clientClose).getD false
        = (closeOf (modeOf b.mode) b.clientClose).getD false := by
      rw [close_getD _ _ _ (.inr rfl), close_getD _ _ _ (.inr rfl), out_getD h.client]
    have e3 : b'.halfClose.getD (60 * second) = b.halfClose.getD (60 * second) :=
      out_getD h.half
    unfold ends
    dsimp only
    rw [e1, e2, e3]

theorem fillOverride_res (mode : String) (o p : Override) (h : Spec.OverrideOut o p) :
    Res (fun a b => a = b) (fillOverride mode o) (fillOverride mode p) := by
  have : fillOverride mode p = fillOverride mode o := by
    obtain ⟨m, pr, t, v, s⟩ := o
    obtain ⟨m', pr', t', v', s'⟩ := p
    obtain ⟨h1, h2, h3, h4, h5⟩ := h
    dsimp only at h1 h2 h3 h4 h5
    subst h1 h2 h4 h5
    simp only [fillOverride, overrideMode, out_timeout h3]
  rw [this]
  cases fillOverride mode o <;> exact rfl

theorem does_eq {a b : Backend} (h1 : a.mode = b.mode) (h2 : a.alpnProtos = b.alpnProtos)
    (h3 : a.backendProto.getD "http/1.1" = b.backendProto.getD "http/1.1")
    (h4 : a.forwardRateLimit = b.forwardRateLimit) (h5 : a.forwardTimeout = b.forwardTimeout)
    (h6 : a.proxyProtocolVersion = b.proxyProtocolVersion)
    (h7 : a.sanitizePath.getD true = b.sanitizePath.getD true) (h8 : ends a = ends b)
    (h9 : a.overrides = b.overrides) : does a = does b := by
  have e1 : protoUsed a = protoUsed b := by
    have e0 : ∀ r, protoSetting a r = protoSetting b r := by
      intro r; unfold protoSetting; rw [h9, h3]
    funext x r; simp only [protoUsed, e0]
  have e2 : sanitized a = sanitized b := by
    funext r; simp only [sanitized, h9, h7]
  have e3 : dialTimeout a = dialTimeout b := by
    funext r; simp only [dialTimeout, h9, h5]
  have e4 : proxyHeader a = proxyHeader b := by
    funext r; simp only [proxyHeader, h9, h6]
  unfold does
  rw [e1, e2, e3, e4, h1, h2, h4, h8, h9]

theorem fillRest_res (b b' : Backend) (h : Filled b b') :
    Res (fun x y => does x = does y) (fillRest b) (fillRest b') := by
  unfold fillRest
  rw [h.version, h.mode]
  by_cases h1 : versionOf b.proxyProtocolVersion = none
  · simp only [if_pos h1]; rfl
  simp only [if_neg h1]
  have hn : (b'.overrides ≠ [] ∧ isHttp b.mode = false) ↔
      (b.overrides ≠ [] ∧ isHttp b.mode = false) := by
    rw [Ne, Ne, all2_nil h.overrides]
  by_cases h2 : b.overrides ≠ [] ∧ isHttp b.mode = false
  · simp only [if_pos h2, if_pos (hn.2 h2)]; rfl
  simp only [if_neg h2, if_neg (fun x => h2 (hn.1 x))]
  have h3 := mapM_res _ _ (fillOverride_res b.mode) _ _ h.overrides
  cases hl : b.overrides.mapM (fillOverride b.mode) <;>
    cases hl' : b'.overrides.mapM (fillOverride b.mode) <;> rw [hl, hl'] at h3
  · exact h3
  · exact h3.elim
  · exact h3.elim
  · exact does_eq rfl h.alpn.symm h.proto.symm h.rate.symm h.timeout.symm rfl
      h.sanitize.symm h.ends.symm (all2_eq h3)

theorem mapM_get {ε α β : Type} (f : α → Except ε β) :
    ∀ (l : List α) (m : List β), l.mapM f = .ok m →
      ∀ (i : Nat) (a : α), l[i]? = some a → ∃ b, m[i]? = some b ∧ f a = .ok b
  | [], _, _, _, _, ha => by simp at ha
  | x :: l, m, h, i, a, ha => by
    rw [List.mapM_cons] at h
    cases hx : f x with
    | error e => rw [hx] at h; cases h
    | ok y =>
      rw [hx] at h
      cases hl : l.mapM f with
      | error e => rw [hl] at h; cases h
      | ok n =>
        rw [hl] at h
        obtain rfl : y :: n = m := Except.ok.inj h
        cases i with
        | zero =>
          obtain rfl : x = a := by simpa using ha
          exact ⟨y, rfl, hx⟩
        | succ i =>
          exact mapM_get f l n hl i a (by simpa using ha)

theorem mapM_length {ε α β : Type} (f : α → Except ε β) :
    ∀ (l : List α) (m : List β), l.mapM f = .ok m → m.length = l.length := by
  intro l
  induction l with
  | nil => intro m h; obtain rfl := Except.ok.inj h; rfl
  | cons x l ih =>
    intro m h
    rw [List.mapM_cons] at h
    cases hx : f x with
    | error e => rw [hx] at h; cases h
    | ok y =>
      cases hl : l.mapM f with
      | error e => rw [hx, hl] at h; cases h
      | ok n =>
        rw [hx, hl] at h
        obtain rfl := Except.ok.inj h
        simp [ih n hl]

theorem run_backend {env : Env} {c : Settings} {r : Runs} (h : run env c = .ok r) {i : Nat}
    {b : Backend} (hb : c.backends[i]? = some b) :
    ∃ b1 b2, fill (quic env c) b = .ok b1 ∧ fillRest b1 = .ok b2 ∧
      r.backends[i]? = some (does b2) := by
  unfold run check at h
  by_cases hn : quic env c = true ∧ env.quicIsEnabled = false
  · simp only [if_pos hn] at h; cases h
  simp only [if_neg hn] at h
  cases hl : c.backends.mapM (fill (quic env c)) with
  | error e => rw [hl] at h; cases h
  | ok x =>
    simp only [hl, bind, Except.bind, pure, Except.pure] at h
    split at h
    · cases h
    · rename_i z hz
      split at hz
      · cases hz
      · cases hy : x.mapM fillRest with
        | error e => rw [hy] at hz; cases hz
        | ok y =>
          rw [hy] at hz
          obtain rfl := Except.ok.inj hz
          obtain rfl := Except.ok.inj h
          obtain ⟨b1, h1, h2⟩ := mapM_get _ _ _ hl i b hb
          obtain ⟨b2, h3, h4⟩ := mapM_get _ _ _ hy i b1 h1
          exact ⟨b1, b2, h2, h4, by simp [List.getElem?_map, h3]⟩

theorem fill_ok {q : Bool} {b b1 : Backend} (h : fill q b = .ok b1) :
    b1 = { b with
      mode := modeOf b.mode
      alpnProtos := some (alpnOf q (modeOf b.mode) b.alpnProtos)
      serverClose := closeOf (modeOf b.mode) b.serverClose
      clientClose := closeOf (modeOf b.mode) b.clientClose } ∧
    (b.backendProto = none ∨ isHttp (modeOf b.mode) = true) := by
  unfold fill at h
  dsimp only at h
  split at h
  · cases h
  · split at h
    · cases h
    · rename_i hp
      refine ⟨(Except.ok.inj h).symm, ?_⟩
      cases hb : b.backendProto with
      | none => exact .inl rfl
      | some x =>
        refine .inr ?_
        cases hh : isHttp (modeOf b.mode) with
        | true => rfl
        | false => exact absurd ⟨by rw [hb]; simp, hh⟩ hp

theorem fillRest_ok {b b2 : Backend} (h : fillRest b = .ok b2) :
    ∃ os, b.overrides.mapM (fillOverride b.mode) = .ok os ∧
      b2 = { b with
        forwardTimeout := timeoutOf b.forwardTimeout
        forwardRateLimit := rateOf b.forwardRateLimit
        overrides := os } ∧
      (b.overrides = [] ∨ isHttp b.mode = true) ∧ versionOf b.proxyProtocolVersion ≠ none := by
  unfold fillRest at h
  by_cases h1 : versionOf b.proxyProtocolVersion = none
  · simp only [if_pos h1] at h; cases h
  simp only [if_neg h1] at h
  by_cases h2 : b.overrides ≠ [] ∧ isHttp b.mode = false
  · simp only [if_pos h2] at h; cases h
  simp only [if_neg h2] at h
  cases hl : b.overrides.mapM (fillOverride b.mode) with
  | error e => rw [hl] at h; cases h
  | ok os =>
    rw [hl] at h
    refine ⟨os, rfl, (Except.ok.inj h).symm, ?_, h1⟩
    cases hh : isHttp b.mode with
    | true => exact .inr rfl
    | false => exact .inl (Classical.byContradiction fun hc => h2 ⟨hc, hh⟩)

theorem fillOverride_ok {m : String} {o p : Override} (h : fillOverride m o = .ok p) :
    p = { o with mode := overrideMode m o, forwardTimeout := timeoutOf o.forwardTimeout } ∧
      isHttp (overrideMode m o) = true ∧ versionOf o.proxyProtocolVersion ≠ none := by
  unfold fillOverride at h
  dsimp only at h
  split at h
  · cases h
  · rename_i h1
    split at h
    · cases h
    · rename_i h2
      exact ⟨(Except.ok.inj h).symm, by simpa using h1, h2⟩

theorem run_top {env : Env} {c : Settings} {r : Runs} (h : run env c = .ok r) :
    r.quic = quic env c ∧ r.revokes = revokes c ∧ r.scopes = c.scopes.map scopesOf ∧
      (quic env c = true → env.quicIsEnabled = true) := by
  unfold run check at h
  by_cases hn : quic env c = true ∧ env.quicIsEnabled = false
  · simp only [if_pos hn] at h; cases h
  simp only [if_neg hn] at h
  cases hl : c.backends.mapM (fill (quic env c)) with
  | error e => rw [hl] at h; cases h
  | ok x =>
    simp only [hl, bind, Except.bind, pure, Except.pure] at h
    split at h
    · cases h
    · rename_i z hz
      split at hz
      · cases hz
      · cases hy : x.mapM fillRest with
        | error e => rw [hy] at hz; cases hz
        | ok y =>
          rw [hy] at hz
          obtain rfl := Except.ok.inj hz
          obtain rfl := Except.ok.inj h
          refine ⟨rfl, rfl, rfl, fun hq => ?_⟩
          cases he : env.quicIsEnabled with
          | true => rfl
          | false => exact absurd ⟨hq, he⟩ hn

theorem quic_same {env : Env} {c c' : Settings}
    (h : Spec.Out none (some env.quicIsEnabled) c.enableQUIC c'.enableQUIC) :
    quic env c' = quic env c := out_getD h

theorem protoUsed_congr (b : Backend) (h3 : Bool) (q q' : Req)
    (hp : protoSetting b q = protoSetting b q') (hu : q.upgrade = q'.upgrade)
    (hn : q.negotiated = q'.negotiated) : protoUsed b h3 q = protoUsed b h3 q' := by
  unfold protoUsed
  rw [hp, hu, hn]

theorem accepted_of {ε α : Type} {x : Except ε α} (h : x.isOk = true) : ∃ r, x = .ok r := by
  cases x with
  | error e => cases h
  | ok a => exact ⟨a, rfl⟩

/-! ## Theorems -/

/-- Writing out documented defaults changes nothing: a configuration and one in which any of
the settings that it leaves out are written with the documented value are refused for the
same reason, or the proxy does the same with both.  Missing: `serverCloseEndsConnection` in
mode QUIC. -/
theorem written_partial (env : Env) (c c' : Settings) (h : Spec.SettingsOut env.quicIsEnabled c c')
    (hk : Spec.All2 Spec.Kept c.backends c'.backends) : run env c = run env c' := by
  have hq := quic_same h.quic
  have hb : Spec.All2 (Spec.BackendOut (quic env c)) c.backends c'.backends := by
    have := h.backends
    unfold quic
    cases hc : c.enableQUIC <;> rw [hc] at this <;> exact this
  have hs : c.scopes.map scopesOf = c'.scopes.map scopesOf := by
    refine all2_map scopesOf ?_ h.scopes
    rintro a b (h1 | ⟨h1, h2⟩)
    · rw [h1]
    · rw [h1, h2]; decide +kernel
  have hr : revokes c' = revokes c := out_getD h.revoke
  have h1 := mapM_res (fill (quic env c)) (fill (quic env c))
    (R := fun a b => Spec.BackendOut (quic env c) a b ∧ Spec.Kept a b)
    (fun a b hab => fill_res _ a b hab.1 hab.2) _ _ (all2_and hb hk)
  unfold run check
  rw [hq]
  by_cases hn : quic env c = true ∧ env.quicIsEnabled = false
  · simp only [if_pos hn]; rfl
  simp only [if_neg hn]
  cases hl : c.backends.mapM (fill (quic env c)) <;>
    cases hl' : c'.backends.mapM (fill (quic env c)) <;> rw [hl, hl'] at h1
  · exact congrArg Except.error h1
  · exact h1.elim
  · exact h1.elim
  · rename_i x y
    have ho : (x.map fun b => (b.mode, b.alpnProtos.getD []))
        = y.map fun b => (b.mode, b.alpnProtos.getD []) :=
      all2_map _ (fun a b (hab : Filled a b) => by rw [hab.mode, hab.alpn]) h1
    have h2 := mapM_res _ _ fillRest_res _ _ h1
    simp only [bind, Except.bind, pure, Except.pure]
    rw [ho]
    cases env.others (quic env c) (y.map fun b => (b.mode, b.alpnProtos.getD [])) with
    | some e => rfl
    | none =>
      dsimp only
      cases hx : x.mapM fillRest <;> cases hy : y.mapM fillRest <;> rw [hx, hy] at h2
      · exact congrArg Except.error h2
      · exact h2.elim
      · exact h2.elim
      · dsimp only
        rw [hs, all2_map does (fun _ _ h => h) h2]
        simp only [revokes] at hr ⊢
        rw [hr]

/-- A configuration that leaves settings out, and the same with all defaults written. -/
def Ex.bare : Settings :=
  { scopes := [[]], backends := [{ mode := "https", overrides := [{ backendProto := some "h2" }] }, {}] }
def Ex.full : Settings :=
  { enableQUIC := some true, revokeUnused := some true, scopes := [["openid", "email"]]
    backends := [
      { mode := "https", alpnProtos := some ["h3", "h2", "http/1.1"], backendProto := some "http/1.1"
        forwardRateLimit := 5, forwardTimeout := Spec.seconds 30, sanitizePath := some true
        overrides := [{ backendProto := some "h2", forwardTimeout := Spec.seconds 30 }] },
      { mode := "PLAINTEXT", serverClose := some true, clientClose := some false
        halfClose := some (Spec.seconds 60) }] }
def Ex.env : Env := { quicIsEnabled := true, others := fun _ _ => none }

/-- Non-vacuity of `written_partial`: the two differ only by defaults, and are accepted. -/
example : Spec.SettingsOut Ex.env.quicIsEnabled Ex.bare Ex.full ∧
    Spec.All2 Spec.Kept Ex.bare.backends Ex.full.backends ∧
    ∃ r, run Ex.env Ex.bare = .ok r := by
  have hu : "https".toUpper = "HTTPS" := by decide +kernel
  refine ⟨⟨.inr ⟨rfl, rfl⟩, .inr ⟨rfl, rfl⟩, .cons (.inr ⟨rfl, rfl⟩) .nil, .cons ?_ (.cons ?_ .nil)⟩,
    .cons ?_ (.cons ?_ .nil), accepted_of (by decide +kernel)⟩
  · exact ⟨.inl rfl, .inr ⟨rfl, _, .inr ⟨rfl, by simp [Spec.named, hu], rfl⟩, rfl⟩,
      .inr ⟨by simp [Spec.named, hu], rfl, rfl⟩, .inr ⟨rfl, rfl⟩, .inr ⟨rfl, rfl⟩, rfl,
      .inr ⟨rfl, rfl⟩, .inl rfl, .inl rfl, .inl rfl,
      .cons ⟨rfl, rfl, .inr ⟨rfl, rfl⟩, rfl, rfl⟩ .nil⟩
  · exact ⟨.inr ⟨rfl, rfl⟩, .inl rfl, .inl rfl, .inl rfl, .inl rfl, rfl, .inl rfl,
      .inr ⟨rfl, rfl⟩, .inr ⟨rfl, rfl⟩, .inr ⟨rfl, rfl⟩, .nil⟩
  · intro h; simp [Spec.named, hu] at h
  · intro h; exact absurd (List.mem_singleton.1 h) (by decide +kernel)

/-- The full claim fails: in mode QUIC a connection is not ended when the server closes its
side, unless the documented default is written. -/
theorem quic_close_violated (env : Env) (c : Settings) (i : Nat) (b : Backend) (r r' : Runs)
    (hb : c.backends[i]? = some b) (hm : b.mode.toUpper = "QUIC") (hs : b.serverClose = none)
    (h : run env c = .ok r)
    (h' : run env { c with backends := c.backends.set i { b with serverClose := some true } } = .ok r') :
    (r.backends[i]?).map (fun d => d.ends.server) = some false ∧
    (r'.backends[i]?).map (fun d => d.ends.server) = some true := by
  have hq : modeOf b.mode = "QUIC" := modeOf_named hm (by decide) (by decide)
  obtain ⟨b1, b2, h1, h2, h3⟩ := run_backend h hb
  obtain ⟨rfl, -⟩ := fill_ok h1
  obtain ⟨os, -, rfl, -⟩ := fillRest_ok h2
  have hi : i < c.backends.length := by
    rcases Nat.lt_or_ge i c.backends.length with h | h
    · exact h
    · rw [List.getElem?_eq_none h] at hb; cases hb
  have hb' : ({ c with backends := c.backends.set i { b with serverClose := some true } } :
      Settings).backends[i]? = some { b with serverClose := some true } := by
    simp [hi]
  obtain ⟨b1', b2', h1', h2', h3'⟩ := run_backend h' hb'
  obtain ⟨rfl, -⟩ := fill_ok h1'
  obtain ⟨os', -, rfl, -⟩ := fillRest_ok h2'
  rw [h3, h3']
  simp [does, ends, hq, hs, closeOf]

/-- Non-vacuity of `quic_close_violated`. -/
example : (∃ r, run Ex.env { backends := [{ mode := "quic" }] } = .ok r) ∧
    ∃ r', run Ex.env { backends := [{ mode := "quic", serverClose := some true }] } = .ok r' :=
  ⟨accepted_of (by decide +kernel), accepted_of (by decide +kernel)⟩

/-- What an accepted configuration says is what the proxy does, and what it leaves out is as
documented.  Missing: `serverCloseEndsConnection` left out in mode QUIC. -/
theorem effective_partial (env : Env) (c : Settings) (r : Runs) (h : run env c = .ok r) (i : Nat)
    (b : Backend) (hb : c.backends[i]? = some b) :
    ∃ d, r.backends[i]? = some d ∧
      -- forwardRateLimit
      (b.forwardRateLimit = 0 → d.rate = 5) ∧
      (b.forwardRateLimit ≠ 0 → d.rate = b.forwardRateLimit) ∧
      -- forwardTimeout
      (b.forwardTimeout = 0 → ∀ q, q.override = none → d.dialTimeout q = Spec.seconds 30) ∧
      (b.forwardTimeout ≠ 0 → ∀ q, q.override = none → d.dialTimeout q = b.forwardTimeout) ∧
      -- alpnProtos
      (b.alpnProtos = none → ∀ l, Spec.alpn r.quic b.mode l → d.alpn = l) ∧
      (∀ l, b.alpnProtos = some l → d.alpn = l) ∧
      -- mode
      (Spec.named b.mode ["", "PLAINTEXT"] → d.mode = "TCP") ∧
      (¬ Spec.named b.mode ["", "PLAINTEXT"] → d.mode = b.mode.toUpper) ∧
      -- backendProto
      (b.backendProto ≠ none → Spec.named b.mode ["HTTP", "HTTPS"]) ∧
      (b.backendProto = none → ∀ h3 q, q.override = none → d.proto h3 q = "http/1.1") ∧
      (b.backendProto = some "" → ∀ q, q.override = none → q.upgrade = false →
        q.negotiated ∈ ["h3", "h2", "http/1.1"] → d.proto true q = q.negotiated) ∧
      (∀ p, b.backendProto = some p → p ∈ ["h3", "h2", "http/1.1"] →
        ∀ q, q.override = none → q.upgrade = false → d.proto true q = p) ∧
      -- sanitizePath
      (∀ q, q.override = none → (d.sanitized q = false ↔ b.sanitizePath = some false)) ∧
      -- half-closed connections
      (∀ v, b.serverClose = some v → d.ends.server = v) ∧
      (b.serverClose = none → ¬ Spec.named b.mode ["QUIC"] → d.ends.server = true) ∧
      (d.ends.client = true ↔ b.clientClose = some true) ∧
      (b.halfClose = none → d.ends.timeout = Spec.seconds 60) ∧
      (∀ t, b.halfClose = some t → d.ends.timeout = t) := by
  obtain ⟨b1, b2, h1, h2, h3⟩ := run_backend h hb
  obtain ⟨rfl, hp⟩ := fill_ok h1
  obtain ⟨os, -, rfl, -⟩ := fillRest_ok h2
  refine ⟨_, h3, ?_, ?_, ?_, ?_, ?_, ?_, ?_, ?_, ?_, ?_, ?_, ?_, ?_, ?_, ?_, ?_, ?_, ?_⟩
  · intro h0; simp [does, rateOf, h0]
  · intro h0; simp [does, rateOf, h0]
  · intro h0 q hq; simp [does, dialTimeout, hq, timeoutOf, h0, Spec.seconds, second]
  · intro h0 q hq; simp [does, dialTimeout, hq, timeoutOf, h0]
  · intro h0 l hl
    rw [(run_top h).1] at hl
    have hh : Spec.BackendOut (quic env c) b { b with alpnProtos := some l } :=
      ⟨.inl rfl, .inr ⟨h0, l, hl, rfl⟩, .inl rfl, .inl rfl, .inl rfl, rfl, .inl rfl, .inl rfl,
        .inl rfl, .inl rfl, by
          show Spec.All2 _ b.overrides b.overrides
          induction b.overrides with
          | nil => exact .nil
          | cons o os ih => exact .cons ⟨rfl, rfl, .inl rfl, rfl, rfl⟩ ih⟩
    exact (alpn_same hh).symm
  · intro l hl; simp [does, hl, alpnOf]
  · intro hn
    simp only [Spec.named, List.mem_cons, List.not_mem_nil, or_false] at hn
    simp [does, modeOf, hn]
  · intro hn
    simp only [Spec.named, List.mem_cons, List.not_mem_nil, or_false] at hn
    simp [does, modeOf, hn]
  · intro hn
    rcases hp with hp | hp
    · exact absurd hp hn
    · unfold modeOf at hp
      split at hp
      · exact absurd hp (by decide +kernel)
      · simpa [isHttp, Spec.named] using hp
  · intro h0 h3 q hq; simp [does, protoUsed, protoSetting, hq, h0]
  · intro h0 q hq hu hn
    simp only [List.mem_cons, List.not_mem_nil, or_false] at hn
    rcases hn with hn | hn | hn <;> simp [does, protoUsed, protoSetting, hq, h0, hu, hn]
  · intro p h0 hn q hq hu
    simp only [List.mem_cons, List.not_mem_nil, or_false] at hn
    rcases hn with rfl | rfl | rfl <;> simp [does, protoUsed, protoSetting, hq, h0, hu]
  · intro q hq
    cases b.sanitizePath <;> simp [does, sanitized, hq]
  · intro v hv; simp [does, ends, closeOf, hv]
  · intro h0 hn
    have : modeOf b.mode ≠ "QUIC" := fun hm => hn (by simp [Spec.named, modeOf_quic hm])
    simp [does, ends, closeOf, h0, this]
  · cases b.clientClose <;> simp [does, ends, closeOf]
    split <;> simp
  · intro h0; simp [does, ends, h0, Spec.seconds, second]
  · intro t h0; simp [does, ends, h0]

/-- The settings of the proxy itself: QUIC is on if that is written, or nothing is written
and the binary supports it; unused certificates are revoked unless the contrary is written;
and the scopes are the written ones, or those for the address. -/
theorem effective_top (env : Env) (c : Settings) (r : Runs) (h : run env c = .ok r) :
    (r.quic = true ↔ env.quicIsEnabled = true ∧ c.enableQUIC ≠ some false) ∧
    (r.revokes = false ↔ c.revokeUnused = some false) ∧
    (∀ (i : Nat) (l : List String), c.scopes[i]? = some l →
      r.scopes[i]? = some (match l with | [] => ["openid", "email"] | x :: xs => x :: xs)) := by
  obtain ⟨h1, h2, h3, h4⟩ := run_top h
  refine ⟨?_, ?_, ?_⟩
  · rw [h1]
    refine ⟨fun hq => ⟨h4 hq, ?_⟩, fun ⟨he, hn⟩ => ?_⟩
    · intro hf; simp [quic, hf] at hq
    · unfold quic
      cases hc : c.enableQUIC with
      | none => exact he
      | some v => cases v with
        | true => rfl
        | false => exact absurd hc hn
  · rw [h2]
    cases hc : c.revokeUnused <;> simp [revokes, hc]
  · intro i l hl
    rw [h3, List.getElem?_map, hl]
    cases l <;> simp [scopesOf]

/-- A path override has its own timeout and PROXY header, and takes the mode, the protocol
and the cleaning of paths from the backend where it says nothing about them. -/
theorem override_effective (env : Env) (c : Settings) (r : Runs) (h : run env c = .ok r) (i j : Nat)
    (b : Backend) (o : Override) (hb : c.backends[i]? = some b) (ho : b.overrides[j]? = some o) :
    ∃ d, r.backends[i]? = some d ∧ ∀ q : Req, q.override = some j →
      (o.forwardTimeout = 0 → d.dialTimeout q = Spec.seconds 30) ∧
      (o.forwardTimeout ≠ 0 → d.dialTimeout q = o.forwardTimeout) ∧
      (o.proxyProtocolVersion = "" → d.proxyHeader q = some 0) ∧
      (o.mode = "" → d.overrideMode j = some d.mode) ∧
      (o.mode ≠ "" → d.overrideMode j = some o.mode.toUpper) ∧
      (o.backendProto = none → ∀ h3, d.proto h3 q = d.proto h3 { q with override := none }) ∧
      (∀ p, o.backendProto = some p → p ∈ ["h3", "h2", "http/1.1"] → q.upgrade = false →
        d.proto true q = p) ∧
      (o.sanitizePath = none → d.sanitized q = d.sanitized { q with override := none }) ∧
      (∀ v, o.sanitizePath = some v → d.sanitized q = v) := by
  obtain ⟨b1, b2, h1, h2, h3⟩ := run_backend h hb
  obtain ⟨rfl, hp⟩ := fill_ok h1
  obtain ⟨os, hos, rfl, hh, -⟩ := fillRest_ok h2
  obtain ⟨p, hp1, hp2⟩ := mapM_get _ _ _ hos j o ho
  obtain ⟨rfl, -⟩ := fillOverride_ok hp2
  refine ⟨_, h3, fun q hq => ⟨?_, ?_, ?_, ?_, ?_, ?_, ?_, ?_, ?_⟩⟩
  · intro h0; simp [does, dialTimeout, hq, hp1, timeoutOf, h0, Spec.seconds, second]
  · intro h0; simp [does, dialTimeout, hq, hp1, timeoutOf, h0]
  · intro h0; simp [does, proxyHeader, hq, hp1, h0]; decide +kernel
  · intro h0
    have hm : (modeOf b.mode).toUpper = modeOf b.mode := by
      rcases hh with hh | hh
      · have : b.overrides = [] := hh
        rw [this] at ho; simp at ho
      · have hh' : isHttp (modeOf b.mode) = true := hh
        simp only [isHttp, Bool.or_eq_true, beq_iff_eq] at hh'
        rcases hh' with e | e <;> rw [e] <;> decide +kernel
    simp [does, hp1, overrideMode, h0, hm]
  · intro h0; simp [does, hp1, overrideMode, h0]
  · intro h0 h3
    exact protoUsed_congr _ _ _ _ (by simp [protoSetting, hq, hp1, h0]) rfl rfl
  · intro p h0 hn hu
    simp only [List.mem_cons, List.not_mem_nil, or_false] at hn
    rcases hn with rfl | rfl | rfl <;> simp [does, protoUsed, protoSetting, hq, hp1, h0, hu]
  · intro h0; simp [does, sanitized, hq, hp1, h0]
  · intro v h0; simp [does, sanitized, hq, hp1, h0]

/-- With an accepted configuration it is clear for each request whether a PROXY header is sent, and which: the version
that is written for the backend or for the path override, and none if nothing is written. -/
theorem header_effective (env : Env) (c : Settings) (r : Runs) (h : run env c = .ok r) (i : Nat)
    (b : Backend) (hb : c.backends[i]? = some b) :
    ∃ d, r.backends[i]? = some d ∧ ∀ q : Req, ∃ v, d.proxyHeader q = some v ∧
      ∀ w, (q.override.bind (b.overrides[·]?) = none ∧ w = b.proxyProtocolVersion ∨
        ∃ j o, q.override = some j ∧ b.overrides[j]? = some o ∧ w = o.proxyProtocolVersion) →
        (w = "" → v = 0) ∧ (w = "v1" → v = 1) ∧ (w = "v2" → v = 2) := by
  have known : ∀ w v, versionOf w = some v → (w = "" → v = 0) ∧ (w = "v1" → v = 1) ∧ (w = "v2" → v = 2) := by
    intro w v hv
    refine ⟨?_, ?_, ?_⟩ <;> rintro rfl
    · exact (Option.some.inj ((show versionOf "" = some 0 by decide +kernel).symm.trans hv)).symm
    · exact (Option.some.inj ((show versionOf "v1" = some 1 by decide +kernel).symm.trans hv)).symm
    · exact (Option.some.inj ((show versionOf "v2" = some 2 by decide +kernel).symm.trans hv)).symm
  obtain ⟨b1, b2, h1, h2, h3⟩ := run_backend h hb
  obtain ⟨rfl, hp⟩ := fill_ok h1
  obtain ⟨os, hos, rfl, -, hv⟩ := fillRest_ok h2
  have hlen : ∀ j : Nat, b.overrides[j]? = none → os[j]? = none := by
    intro j hj
    rw [List.getElem?_eq_none_iff] at hj ⊢
    rwa [mapM_length _ _ _ hos]
  refine ⟨_, h3, fun q => ?_⟩
  cases hq : q.override.bind (b.overrides[·]?) with
  | none =>
    have hn : q.override.bind (os[·]?) = none := by
      cases ho : q.override with
      | none => rfl
      | some j => rw [ho] at hq; exact hlen j hq
    obtain ⟨v, hv⟩ := Option.ne_none_iff_exists'.1 hv
    have hv' : versionOf b.proxyProtocolVersion = some v := hv
    refine ⟨v, by simp [does, proxyHeader, hn, hv'], ?_⟩
    rintro w (⟨-, rfl⟩ | ⟨j, o, hj, ho, rfl⟩)
    · exact known _ _ hv'
    · rw [hj] at hq
      exact absurd (ho.symm.trans hq) (by simp)
  | some o =>
    cases ho : q.override with
    | none => rw [ho] at hq; cases hq
    | some j =>
      rw [ho] at hq
      have hj : b.overrides[j]? = some o := hq
      obtain ⟨p, hp1, hp2⟩ := mapM_get _ _ _ hos j o hj
      obtain ⟨rfl, -, hov⟩ := fillOverride_ok hp2
      obtain ⟨v, hv⟩ := Option.ne_none_iff_exists'.1 hov
      refine ⟨v, by simp [does, proxyHeader, ho, hp1, hv], ?_⟩
      rintro w (⟨hw, -⟩ | ⟨j', o', hj', ho', rfl⟩)
      · cases hw
      · obtain rfl := Option.some.inj hj'
        obtain rfl := Option.some.inj (hj.symm.trans ho')
        exact known _ _ hv

/-- Non-vacuity of the three theorems: an accepted configuration with an override. -/
example : (∃ r, run Ex.env Ex.bare = .ok r) ∧ Ex.bare.backends[0]?.bind (·.overrides[0]?)
    = some { backendProto := some "h2" } := ⟨accepted_of (by decide +kernel), rfl⟩

end Verif.Defaults
