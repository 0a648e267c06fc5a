import Verif.Model.Restart
import Verif.Props.ReconfApplied
/-
C149. Reloading a configuration has the effect of restarting with it, as far as it can be changed without a restart.
-/
namespace Verif.Restart

open Verif.Config (Config Env check)
open Verif.Reconf (Ext Proxy reconfigure history setLimits BwMap limitKeys)

namespace Spec

/-- Clients, servers and the certificate authority see no difference between two proxies. -/
structure Same (a b : Running) : Prop where
  cfg : a.core.cfg = b.core.cfg
  table : a.core.table = b.core.table
  defServerName : a.core.defServerName = b.core.defServerName
  pkis : a.core.pkis = b.core.pkis
  limits : ∀ i, a.core.limitsOf i = b.core.limitsOf i
  http : a.http = b.http
  tls : a.tls = b.tls
  email : a.email = b.email
  accepts : a.accepts = b.accepts
  overQUIC : ∀ n protos, overQUIC a n protos = overQUIC b n protos
  altSvc : ∀ i negotiated host, altSvc a.core i negotiated host = altSvc b.core i negotiated host

/-- Whether a configuration wants QUIC. -/
def wants (x : Ext) (f : Full) : Bool :=
  match f.cfg.enableQUIC with
  | some b => b
  | none => x.env.quicIsEnabled

/-- No group of limits is without a name. -/
def Named (x : Ext) (f : Full) : Prop := ∀ l ∈ f.cfg.bwLimits, x.env.toLower l.name ≠ ""

/-- All groups have names in lower case. -/
def Lower (x : Ext) (f : Full) : Prop := ∀ l ∈ f.cfg.bwLimits, x.env.toLower l.name = l.name

end Spec

/-! ## What reloading does not change -/

theorem reload_kept (x : Ext) (f : Full) (r : Running) :
    (reload x f r).2.http = r.http ∧ (reload x f r).2.tls = r.tls ∧ (reload x f r).2.quic = r.quic ∧
      (reload x f r).2.email = r.email ∧ (reload x f r).2.accepts = r.accepts :=
  ⟨rfl, rfl, rfl, rfl, rfl⟩

theorem reloads_kept (hs : List (Ext × Full)) (r : Running) :
    (reloads hs r).http = r.http ∧ (reloads hs r).tls = r.tls ∧ (reloads hs r).quic = r.quic ∧
      (reloads hs r).email = r.email ∧ (reloads hs r).accepts = r.accepts := by
  induction hs generalizing r with
  | nil => exact ⟨rfl, rfl, rfl, rfl, rfl⟩
  | cons a t ih => exact ih _

/-- A successful reconfiguration, in full. -/
theorem reconfigure_full {x : Ext} {raw : Config} {p p' : Proxy} (h : reconfigure x raw p = (none, p'))
    (hnew : p.cfg ≠ some raw) :
    ∃ cfg, check x.env raw = .ok cfg ∧ p'.cfg = some cfg ∧ p'.table = Verif.Config.tableOf cfg.backends ∧
      p'.defServerName = cfg.defaultServerName ∧ p'.pkis = cfg.pki.map (·.name) ∧
      p'.bw = setLimits x.env.toLower cfg.bwLimits p.bw ∧ p'.limitKey = limitKeys p'.bw cfg.backends := by
  unfold reconfigure at h
  rw [if_neg hnew] at h
  split at h
  · cases h
  · rename_i cfg hc
    split at h
    · cases h
    · dsimp only at h
      split at h
      · cases h
      · split at h
        · cases h
        · cases h
          exact ⟨cfg, hc, rfl, rfl, rfl, rfl, rfl, rfl⟩

theorem wants_check {x : Ext} {f : Full} {cfg : Config} (h : check x.env f.cfg = .ok cfg) :
    cfg.enableQUIC = some (Spec.wants x f) := by
  rw [(Verif.Config.check_ok h).1]
  unfold Verif.Config.normalise Verif.Config.Config.quic Spec.wants
  dsimp only
  cases f.cfg.enableQUIC <;> rfl

theorem start_some {x : Ext} {f : Full} {r : Running} (h : start x f = some r) :
    reconfigure x f.cfg {} = (none, r.core) ∧ r.http = (if f.set.httpAddr = "" then none else some f.set.httpAddr) ∧
      r.tls = f.set.tlsAddr ∧ r.quic = (if Spec.wants x f then some f.set.tlsAddr else none) ∧
      r.email = f.set.email ∧ r.accepts = f.set.acceptTOS := by
  unfold start at h
  split at h
  · cases h
  · rename_i p hp
    obtain ⟨cfg, hc, h1, _⟩ := reconfigure_full hp (by intro h; cases h)
    have hq : p.cfg.bind (·.enableQUIC) = some (Spec.wants x f) := by
      rw [h1]; exact wants_check hc
    cases h
    refine ⟨hp, rfl, rfl, ?_, rfl, rfl⟩
    dsimp only
    simp only [hq, Option.some.injEq]

/-- C149 (addresses and account). Whatever is reloaded, the proxy listens where it did when it started, and uses the
same e-mail address and consent. -/
theorem settings_of_start (x : Ext) (f : Full) (r : Running) (hs : List (Ext × Full)) (h : start x f = some r) :
    (reloads hs r).http = (if f.set.httpAddr = "" then none else some f.set.httpAddr) ∧
      (reloads hs r).tls = f.set.tlsAddr ∧
      (reloads hs r).quic = (if Spec.wants x f then some f.set.tlsAddr else none) ∧
      (reloads hs r).email = f.set.email ∧ (reloads hs r).accepts = f.set.acceptTOS := by
  obtain ⟨_, h1, h2, h3, h4, h5⟩ := start_some h
  obtain ⟨k1, k2, k3, k4, k5⟩ := reloads_kept hs r
  exact ⟨k1.trans h1, k2.trans h2, k3.trans h3, k4.trans h4, k5.trans h5⟩

/-! ## The limits -/

theorem bw_empty_step (x : Ext) (f : Full) (p : Proxy) (hn : Spec.Named x f) (hp : p.bw "" = none) :
    (reconfigure x f.cfg p).2.bw "" = none := by
  have key : ∀ cfg, check x.env f.cfg = .ok cfg → setLimits x.env.toLower cfg.bwLimits p.bw "" = none := by
    intro cfg hc
    rw [Verif.Reconf.setLimits_other]
    · exact hp
    · intro l hl he
      have : cfg.bwLimits = f.cfg.bwLimits := by rw [(Verif.Config.check_ok hc).1]; rfl
      rw [this] at hl
      first
        | exact hn l hl he
        | exact hn l hl he.symm
  unfold reconfigure
  split
  · exact hp
  · split
    · exact hp
    · rename_i cfg hc
      split
      · exact hp
      · dsimp only
        split
        · exact key cfg hc
        · split
          · exact key cfg hc
          · exact key cfg hc

theorem bw_empty (hs : List (Ext × Full)) (r : Running) (hn : ∀ h ∈ hs, Spec.Named h.1 h.2)
    (hp : r.core.bw "" = none) : (reloads hs r).core.bw "" = none := by
  induction hs generalizing r with
  | nil => exact hp
  | cons a t ih =>
    exact ih _ (fun h hh => hn h (List.mem_cons_of_mem _ hh)) (bw_empty_step a.1 a.2 r.core (hn a (List.mem_cons_self ..)) hp)

/-- The limits of the backends do not depend on what was before. -/
theorem limits_fresh {x : Ext} {f : Full} {cfg : Config} (hc : check x.env f.cfg = .ok cfg) (hl : Spec.Lower x f)
    (m m' : BwMap) (hm : m "" = none) (hm' : m' "" = none) (be : Verif.Config.Backend) (hb : be ∈ cfg.backends) :
    setLimits x.env.toLower cfg.bwLimits m be.bwLimit = setLimits x.env.toLower cfg.bwLimits m' be.bwLimit := by
  have hraw : cfg.bwLimits = f.cfg.bwLimits := by rw [(Verif.Config.check_ok hc).1]; rfl
  have hnd := (Verif.Config.loopNames_none (Verif.Config.check_parts hc).2.2.2.2.2.2.2.1).2.1
  have hlow : ∀ l ∈ cfg.bwLimits, x.env.toLower l.name = l.name := hraw ▸ hl
  by_cases hin : ∃ l ∈ cfg.bwLimits, l.name = be.bwLimit
  · obtain ⟨l, h1, h2⟩ := hin
    rw [← h2, Verif.Reconf.setLimits_mem _ _ m hlow hnd l h1, Verif.Reconf.setLimits_mem _ _ m' hlow hnd l h1]
  · have he : be.bwLimit = "" := by
      apply Decidable.byContradiction
      intro hne
      obtain ⟨l, h1, h2, _⟩ := (Verif.Config.accepted_consistent x.env f.cfg cfg hc).limit_resolves be hb hne
      exact hin ⟨l, h1, h2⟩
    have hother : ∀ m : BwMap, setLimits x.env.toLower cfg.bwLimits m "" = m "" := by
      intro m
      apply Verif.Reconf.setLimits_other
      intro l hl' heq
      rw [hlow l hl'] at heq
      exact hin ⟨l, hl', by rw [he]; first | exact heq | exact heq.symm⟩
    rw [he, hother, hother, hm, hm']

/-! ## Like a restart -/

/-- C149 (accepted). A configuration that differs from the one in force is accepted by a running proxy exactly if the
proxy starts with it. -/
theorem accepted_same (x : Ext) (f : Full) (r : Running) (hnew : r.core.cfg ≠ some f.cfg) :
    (reload x f r).1 = none ↔ (start x f).isSome = true := by
  have h1 := Verif.Reconf.reconf_accepted_iff x f.cfg r.core
  have h2 := Verif.Reconf.reconf_accepted_iff x f.cfg {}
  have h3 : (start x f).isSome = true ↔ (reconfigure x f.cfg {}).1 = none := by
    unfold start
    generalize reconfigure x f.cfg {} = q
    obtain ⟨e, p⟩ := q
    cases e <;> simp
  rw [h3, h2]
  change (reconfigure x f.cfg r.core).1 = none ↔ _
  rw [h1]
  constructor
  · rintro (h | h)
    · exact absurd h hnew
    · exact .inr h
  · rintro (h | h)
    · cases h
    · exact .inr h

/-- C149 (partial). Whatever was in force or was rejected before, a configuration that is accepted has the effect of
starting with it, if it has the addresses and the account of the start, wants QUIC if that did, and no group of
limits was without a name. Missing: `quic_on_violated`, `quic_off_violated`, `account_violated`,
`limit_violated`. Names of groups that are not in lower case are the subject of C20. -/
theorem like_restart_partial (x0 x : Ext) (f0 f : Full) (r0 r1 r2 : Running) (hs : List (Ext × Full))
    (h0 : start x0 f0 = some r0) (h1 : start x f = some r1) (h2 : reload x f (reloads hs r0) = (none, r2))
    (hnew : (reloads hs r0).core.cfg ≠ some f.cfg) (hset : f.set = f0.set) (hq : Spec.wants x f = Spec.wants x0 f0)
    (hn0 : Spec.Named x0 f0) (hn : ∀ h ∈ hs, Spec.Named h.1 h.2) (hl : Spec.Lower x f) :
    Spec.Same r1 r2 := by
  obtain ⟨a1, a2, a3, a4, a5, a6⟩ := start_some h1
  obtain ⟨b1, b2, b3, b4, b5⟩ := settings_of_start x0 f0 r0 hs h0
  have hr : reconfigure x f.cfg (reloads hs r0).core = (none, r2.core) ∧ r2 = { reloads hs r0 with core := r2.core } := by
    unfold reload at h2
    obtain ⟨e1, e2⟩ := Prod.mk.inj h2
    subst e2
    exact ⟨Prod.ext e1 rfl, rfl⟩
  obtain ⟨hr, hr2⟩ := hr
  have k1 : r2.http = (reloads hs r0).http := by rw [hr2]
  have k2 : r2.tls = (reloads hs r0).tls := by rw [hr2]
  have k3 : r2.quic = (reloads hs r0).quic := by rw [hr2]
  have k4 : r2.email = (reloads hs r0).email := by rw [hr2]
  have k5 : r2.accepts = (reloads hs r0).accepts := by rw [hr2]
  obtain ⟨cfg, c1, c2, c3, c4, c5, c6, c7⟩ := reconfigure_full a1 (by intro h; cases h)
  obtain ⟨cfg', d1, d2, d3, d4, d5, d6, d7⟩ := reconfigure_full hr hnew
  have : cfg' = cfg := by rw [c1] at d1; exact (Except.ok.inj d1).symm
  subst this
  have hbw : (reloads hs r0).core.bw "" = none := by
    apply bw_empty hs r0 hn
    have := bw_empty_step x0 f0 {} hn0 rfl
    rw [(start_some h0).1] at this
    exact this
  have hlim : ∀ i, r1.core.limitsOf i = r2.core.limitsOf i := by
    intro i
    unfold Reconf.Proxy.limitsOf
    rw [c7, d7]
    unfold limitKeys
    cases hb : cfg'.backends[i]? with
    | none => rfl
    | some be =>
      have he := limits_fresh c1 hl (fun _ => none) (reloads hs r0).core.bw rfl hbw be (List.mem_of_getElem? hb)
      rw [← d6] at he
      have he : r1.core.bw be.bwLimit = r2.core.bw be.bwLimit := by rw [c6]; exact he
      dsimp only
      rw [he]
      by_cases hi : (r2.core.bw be.bwLimit).isSome = true
      · rw [if_pos hi]; exact he
      · rw [if_neg hi]
  have hcfg : r1.core.cfg = r2.core.cfg := c2.trans d2.symm
  have htab : r1.core.table = r2.core.table := c3.trans d3.symm
  have hquic : r1.quic = r2.quic := by rw [a4, k3, b3, hset, hq]
  refine ⟨hcfg, htab, c4.trans d4.symm, c5.trans d5.symm, hlim, ?_, ?_, ?_, ?_, ?_, ?_⟩
  · rw [a2, k1, b1, hset]
  · rw [a3, k2, b2, hset]
  · rw [a5, k4, b4, hset]
  · rw [a6, k5, b5, hset]
  · intro n protos
    have hc : configForClient r1.core n protos = configForClient r2.core n protos := by
      induction protos with
      | nil => rfl
      | cons p ps ih =>
        unfold configForClient
        rw [htab, hcfg, ih]
    unfold overQUIC
    rw [hquic, hc]
  · intro i g host
    unfold altSvc
    rw [hcfg]

/-- What a reload takes over of a configuration that is accepted, is what a start takes over. -/
theorem core_same {x : Ext} {f : Full} {r r1 r2 : Running} (h1 : start x f = some r1) (h2 : reload x f r = (none, r2))
    (hnew : r.core.cfg ≠ some f.cfg) :
    r1.core.cfg = r2.core.cfg ∧ r1.core.table = r2.core.table ∧ r2.quic = r.quic ∧ r2.email = r.email ∧
      r2.accepts = r.accepts := by
  unfold reload at h2
  obtain ⟨e1, e2⟩ := Prod.mk.inj h2
  subst e2
  obtain ⟨cfg, c1, c2, c3, _⟩ := reconfigure_full (start_some h1).1 (by intro h; cases h)
  obtain ⟨cfg', d1, d2, d3, _⟩ := reconfigure_full (Prod.ext e1 rfl : reconfigure x f.cfg r.core = (none, _)) hnew
  have : cfg' = cfg := by rw [c1] at d1; exact (Except.ok.inj d1).symm
  subst this
  exact ⟨c2.trans d2.symm, c3.trans d3.symm, rfl, rfl, rfl⟩

/-- C149 (violated). After QUIC was turned off by a reload, the proxy still answers over QUIC, with the new
configuration; after a restart it does not. -/
theorem quic_off_violated (x0 x : Ext) (f0 f : Full) (r0 r1 r2 : Running) (hs : List (Ext × Full))
    (h0 : start x0 f0 = some r0) (h1 : start x f = some r1) (h2 : reload x f (reloads hs r0) = (none, r2))
    (hnew : (reloads hs r0).core.cfg ≠ some f.cfg) (hon : Spec.wants x0 f0 = true) (hoff : Spec.wants x f = false)
    (n : String) (protos : List String) :
    overQUIC r1 n protos = none ∧ overQUIC r2 n protos = configForClient r1.core n protos := by
  obtain ⟨c1, c2, c3, _⟩ := core_same h1 h2 hnew
  have q1 : r1.quic = none := by rw [(start_some h1).2.2.2.1, hoff]; rfl
  have q2 : r2.quic = some f0.set.tlsAddr := by
    rw [c3, (settings_of_start x0 f0 r0 hs h0).2.2.1, hon]; rfl
  have hc : configForClient r2.core n protos = configForClient r1.core n protos := by
    induction protos with
    | nil => rfl
    | cons p ps ih =>
      unfold configForClient
      rw [c2, c1, ih]
  unfold overQUIC
  rw [q1, q2, hc]
  exact ⟨rfl, rfl⟩

/-- C149 (violated). After QUIC was turned on by a reload, backends tell clients to use HTTP/3, exactly as after a
restart; but nobody answers over QUIC. -/
theorem quic_on_violated (x0 x : Ext) (f0 f : Full) (r0 r1 r2 : Running) (hs : List (Ext × Full))
    (h0 : start x0 f0 = some r0) (h1 : start x f = some r1) (h2 : reload x f (reloads hs r0) = (none, r2))
    (hnew : (reloads hs r0).core.cfg ≠ some f.cfg) (hoff : Spec.wants x0 f0 = false) (i : Nat)
    (negotiated : Option String) (host : Path.Str) :
    altSvc r2.core i negotiated host = altSvc r1.core i negotiated host ∧ ∀ n protos, overQUIC r2 n protos = none := by
  obtain ⟨c1, c2, c3, _⟩ := core_same h1 h2 hnew
  have q2 : r2.quic = none := by
    rw [c3, (settings_of_start x0 f0 r0 hs h0).2.2.1, hoff]; rfl
  refine ⟨?_, fun n protos => ?_⟩
  · unfold altSvc
    rw [c1]
  · unfold overQUIC
    rw [q2]
    rfl

/-- C149 (violated). The e-mail address and the consent to the terms of the certificate authority are those of the
start, whatever a later configuration says. -/
theorem account_violated (x0 x : Ext) (f0 f : Full) (r0 r1 r2 : Running) (hs : List (Ext × Full))
    (h0 : start x0 f0 = some r0) (h1 : start x f = some r1) (h2 : reload x f (reloads hs r0) = (none, r2))
    (hnew : (reloads hs r0).core.cfg ≠ some f.cfg) (hd : f.set.email ≠ f0.set.email ∨ f.set.acceptTOS ≠ f0.set.acceptTOS) :
    ¬ Spec.Same r1 r2 := by
  obtain ⟨_, _, _, c4, c5⟩ := core_same h1 h2 hnew
  obtain ⟨_, _, _, _, a5, a6⟩ := start_some h1
  obtain ⟨_, _, _, b4, b5⟩ := settings_of_start x0 f0 r0 hs h0
  intro hsame
  rcases hd with hd | hd
  · exact hd (by rw [← a5, hsame.email, c4, b4])
  · exact hd (by rw [← a6, hsame.accepts, c5, b5])

/-! ## Examples -/

namespace Spec

def be : Verif.Config.Backend := { serverNames := ["a"], mode := "HTTP", addresses := ["127.0.0.1:80"] }

def full (quic : Bool) (maxOpen : Int) (groups : List Verif.Config.BWLimit) : Full :=
  { cfg := { maxOpen := maxOpen, enableQUIC := some quic, backends := [be], bwLimits := groups }
    set := { httpAddr := ":80", tlsAddr := ":443", email := "", acceptTOS := true } }

/-- The proxy starts with the first and reloads the second. -/
def after (a b : Full) : Option Running :=
  (start Reconf.Spec.ext a).bind fun r =>
    match reload Reconf.Spec.ext b r with
    | (none, r) => some r
    | _ => none

end Spec

/-- C149 (violated). A group of limits without a name applies to all backends that name no group. After it was
removed by a reload, it still does. -/
theorem limit_violated :
    (Spec.after (Spec.full true 10 [⟨"", 7, 8⟩]) (Spec.full true 10 [])).map (fun r => r.core.limitsOf 0) =
        some (some (Reconf.mkLimiter 7, Reconf.mkLimiter 8)) ∧
      (start Reconf.Spec.ext (Spec.full true 10 [])).map (fun r => r.core.limitsOf 0) = some none := by
  decide +kernel

/-- the hypotheses of `like_restart_partial` can be met -/
example : (Spec.after (Spec.full true 10 []) (Spec.full true 20 [])).isSome = true := by decide +kernel

/-- turned off -/
example : (Spec.after (Spec.full true 10 []) (Spec.full false 10 [])).map (fun r => overQUIC r "a" ["h3", "h2"]) =
    some (some 0) := by decide +kernel

example : (start Reconf.Spec.ext (Spec.full false 10 [])).map (fun r => overQUIC r "a" ["h3", "h2"]) = some none := by
  decide +kernel

/-- turned on -/
example : (Spec.after (Spec.full false 10 []) (Spec.full true 10 [])).map
    (fun r => (altSvc r.core 0 (some "h2") "a".toList, overQUIC r "a" ["h3"])) =
    some (some "h3=\":443\"; ma=2592000;".toList, none) := by decide +kernel

/-! ## Who answers over QUIC, and who says so -/

/-- C149 (QUIC). Over QUIC a client reaches the backend of the first of its protocols that has one which is not
TLSPASSTHROUGH (its connections cannot be passed on), and only if the listener is there. -/
theorem quic_first (r : Running) (n : String) (protos : List String) (i : Nat) :
    overQUIC r n protos = some i ↔ r.quic.isSome = true ∧
      ∃ before proto after, protos = before ++ proto :: after ∧ r.core.table n proto = some i ∧
        (r.core.cfg.bind (·.backends[i]?)).map (·.mode) ≠ some "TLSPASSTHROUGH" ∧
        ∀ q ∈ before, ∀ j, r.core.table n q = some j →
          (r.core.cfg.bind (·.backends[j]?)).map (·.mode) = some "TLSPASSTHROUGH" := by
  unfold overQUIC
  by_cases hq : r.quic.isSome = true
  · rw [if_pos hq]
    simp only [hq, true_and]
    induction protos with
    | nil => simp [configForClient]
    | cons p ps ih =>
      have skip : (∀ j, r.core.table n p = some j →
          (r.core.cfg.bind (·.backends[j]?)).map (·.mode) = some "TLSPASSTHROUGH") →
          (configForClient r.core n ps = some i ↔
            ∃ before proto after, p :: ps = before ++ proto :: after ∧ r.core.table n proto = some i ∧
            (r.core.cfg.bind (·.backends[i]?)).map (·.mode) ≠ some "TLSPASSTHROUGH" ∧
            ∀ q ∈ before, ∀ j, r.core.table n q = some j →
              (r.core.cfg.bind (·.backends[j]?)).map (·.mode) = some "TLSPASSTHROUGH") := by
        intro hp
        rw [ih]
        constructor
        · rintro ⟨b, q, a, h1, h2, h3, h4⟩
          refine ⟨p :: b, q, a, by rw [h1]; rfl, h2, h3, ?_⟩
          intro q' hq'
          rcases List.mem_cons.1 hq' with rfl | hq'
          · exact hp
          · exact h4 q' hq'
        · rintro ⟨b, q, a, h1, h2, h3, h4⟩
          cases b with
          | nil =>
            rw [List.nil_append, List.cons.injEq] at h1
            exact absurd (hp i (h1.1 ▸ h2)) h3
          | cons x b =>
            rw [List.cons_append, List.cons.injEq] at h1
            exact ⟨b, q, a, h1.2, h2, h3, fun q' hq' => h4 q' (List.mem_cons_of_mem _ hq')⟩
      unfold configForClient
      cases ht : r.core.table n p with
      | none => exact skip (fun j hj => by rw [ht] at hj; cases hj)
      | some j =>
        dsimp only
        by_cases hm : (r.core.cfg.bind (·.backends[j]?)).map (·.mode) ≠ some "TLSPASSTHROUGH"
        · rw [if_pos hm]
          constructor
          · intro h
            cases h
            exact ⟨[], p, ps, rfl, ht, hm, fun q hq => (nomatch hq)⟩
          · rintro ⟨b, q, a, h1, h2, h3, h4⟩
            cases b with
            | nil =>
              rw [List.nil_append, List.cons.injEq] at h1
              rw [← h1.1, ht] at h2
              exact h2
            | cons x b =>
              rw [List.cons_append, List.cons.injEq] at h1
              exact absurd (h4 x List.mem_cons_self j (h1.1 ▸ ht)) hm
        · rw [if_neg hm]
          refine skip (fun k hk => ?_)
          rw [ht] at hk
          cases hk
          exact Classical.not_not.1 hm
  · rw [if_neg hq]
    simp [hq]

/-- C149 (QUIC). HTTP/3 is advertised by backends that answer requests themselves and may speak `h3`, in a
configuration that wants QUIC, and by no others. -/
theorem advertised (p : Proxy) (i : Nat) (negotiated : Option String) (host v : Path.Str)
    (h : altSvc p i negotiated host = some v) :
    ∃ cfg be, p.cfg = some cfg ∧ cfg.backends[i]? = some be ∧ cfg.enableQUIC = some true ∧
      (be.mode = "CONSOLE" ∨ be.mode = "LOCAL" ∨ be.mode = "HTTP" ∨ be.mode = "HTTPS") ∧
      "h3" ∈ be.alpnProtos.getD [] ∧ negotiated ≠ some "h3" := by
  unfold altSvc at h
  split at h
  · cases h
  · rename_i cfg hc
    split at h
    · cases h
    · rename_i be hb
      unfold Discovery.altSvc at h
      dsimp only at h
      split at h
      · cases h
      · rename_i hs
        split at h
        · cases h
        · rename_i hn
          have hs' : http3Server cfg be = true := by simpa using hs
          unfold http3Server at hs'
          simp only [Bool.and_eq_true, decide_eq_true_eq, List.mem_cons, List.not_mem_nil, or_false,
            beq_iff_eq, List.contains_iff_mem] at hs'
          exact ⟨cfg, be, hc, hb, hs'.1.2, hs'.1.1, hs'.2, hn⟩

/-- C149 (QUIC). And such a backend does advertise it, to clients that come over TCP and use a port that is a
number. -/
theorem advertises (p : Proxy) (i : Nat) (negotiated : Option String) (host : Path.Str) (cfg : Config)
    (be : Verif.Config.Backend) (hc : p.cfg = some cfg) (hb : cfg.backends[i]? = some be)
    (hq : cfg.enableQUIC = some true)
    (hm : be.mode = "CONSOLE" ∨ be.mode = "LOCAL" ∨ be.mode = "HTTP" ∨ be.mode = "HTTPS")
    (ha : "h3" ∈ be.alpnProtos.getD []) (hn : negotiated ≠ some "h3") (k : Nat)
    (hk : Discovery.atoi (Discovery.portText host) = some k) (hr : 0 < k ∧ k < 65536) :
    (altSvc p i negotiated host).isSome = true := by
  have hs : http3Server cfg be = true := by
    unfold http3Server
    simp only [Bool.and_eq_true, decide_eq_true_eq, List.mem_cons, List.not_mem_nil, or_false,
      beq_iff_eq, List.contains_iff_mem]
    exact ⟨⟨hm, hq⟩, ha⟩
  unfold altSvc
  rw [hc]
  dsimp only
  rw [hb]
  dsimp only
  unfold Discovery.altSvc
  dsimp only
  rw [hs, hk]
  simp [hn, ha, hr.1, hr.2]

/-- A configuration with QUIC: its backend answers over it, and says so. -/
example : (start Reconf.Spec.ext (Spec.full true 10 [])).map
    (fun r => (overQUIC r "a" ["xyz", "h3"], (altSvc r.core 0 (some "h2") "a".toList).isSome)) =
    some (some 0, true) := by decide +kernel

end Verif.Restart
