import Verif.Model.Reconf
import Verif.Props.Config
/-
C19, C20, C21: reconfiguration of a running proxy.
-/
namespace Verif.Reconf

open Verif.Config (Config BWLimit Backend tableOf check Route)
open Verif.Dispatch (World Cert IP checkIP authorize)

/-! ## C19 -/

/-- C19, routing part. Whatever step fails, the running configuration, the routing table, the
default server name, the certificate authorities, the limit group each backend belongs to, the
set of retired backends and the open connections (no re-authorization is started) are as they
were. -/
theorem failed_reconf_partial (x : Ext) (raw : Config) (p p' : Proxy) (e : String)
    (h : reconfigure x raw p = (some e, p')) :
    p'.cfg = p.cfg ∧ p'.table = p.table ∧ p'.defServerName = p.defServerName ∧
    p'.pkis = p.pkis ∧ p'.limitKey = p.limitKey ∧ p'.retired = p.retired ∧
    p'.reauths = p.reauths := by
  unfold reconfigure at h
  split at h
  · cases h
  · split at h
    · cases h; simp
    · split at h
      · cases h; simp
      · dsimp only at h
        split at h
        · cases h; simp
        · split at h
          · cases h; simp
          · cases h

theorem setLimits_other (lower : String → String) (ls : List BWLimit) (m : BwMap) (n : String)
    (h : ∀ l ∈ ls, lower l.name ≠ n) : setLimits lower ls m n = m n := by
  induction ls generalizing m with
  | nil => rfl
  | cons a t ih =>
    rw [setLimits, ih _ fun l hl => h l (List.mem_cons_of_mem _ hl)]
    simp only [BwMap.set]
    rw [if_neg fun e => h a List.mem_cons_self e.symm]

theorem normalise_limits (env : Verif.Config.Env) (raw : Config) :
    (Verif.Config.normalise env raw).bwLimits = raw.bwLimits := rfl

/-- C19, limits part. A failed reconfiguration changes at most the limits of the groups the
rejected configuration defines; if it defines none of the groups in use, every backend keeps
its limits. -/
theorem failed_reconf_limits_partial (x : Ext) (raw : Config) (p p' : Proxy) (e : String)
    (h : reconfigure x raw p = (some e, p')) (i : Nat)
    (hk : ∀ k, p.limitKey i = some k → ∀ l ∈ raw.bwLimits, x.env.toLower l.name ≠ k) :
    p'.limitsOf i = p.limitsOf i := by
  have hb : ∀ k, p.limitKey i = some k → p'.bw k = p.bw k := by
    intro k hk'
    unfold reconfigure at h
    split at h
    · cases h
    · split at h
      · cases h; rfl
      · rename_i cfg hc
        have hl : cfg.bwLimits = raw.bwLimits := by
          rw [(Verif.Config.check_ok hc).1]; rfl
        have hs := setLimits_other x.env.toLower raw.bwLimits p.bw k (hk k hk')
        rw [← hl] at hs
        split at h
        · cases h; rfl
        · dsimp only at h
          split at h
          · cases h; exact hs
          · split at h
            · cases h; exact hs
            · cases h
  have h5 := (failed_reconf_partial x raw p p' e h).2.2.2.2.1
  unfold Proxy.limitsOf
  rw [h5]
  cases hk' : p.limitKey i with
  | none => rfl
  | some k => exact hb k hk'

/-- ASCII lower case. -/
def Spec.lower (s : String) : String := String.ofList (s.toList.map Char.toLower)

/-- An outside world for the examples: ASCII case folding, everything succeeds. -/
def Spec.ext : Ext := { env := { Verif.Config.Spec.env with toLower := Spec.lower } }

/-- One plain TCP backend using limit group `g`. -/
def Spec.be (name g : String) : Backend :=
  { serverNames := [name], mode := "TCP", addresses := ["127.0.0.1:80"], bwLimit := g }

def Spec.cfg (groups : List BWLimit) (bs : List Backend) : Config :=
  { bwLimits := groups, backends := bs }

/-- The full claim fails: a configuration rejected because an SSH certificate authority cannot
be created (for example an unknown key type) has already changed the bandwidth limits of the
running backends. -/
theorem failed_reconf_violated :
    ∃ (x : Ext) (raw0 raw : Config),
      (reconfigure x raw0 {}).1 = none ∧
      (reconfigure x raw (reconfigure x raw0 {}).2).1 = some "sshca.New" ∧
      (reconfigure x raw0 {}).2.limitsOf 0 = some (mkLimiter 1000000, mkLimiter 1000000) ∧
      (reconfigure x raw (reconfigure x raw0 {}).2).2.limitsOf 0 =
        some (mkLimiter 1, mkLimiter 1) :=
  ⟨{ Spec.ext with sshOK := fun s => s.name ≠ "bad" },
    Spec.cfg [⟨"g", 1000000, 1000000⟩] [Spec.be "a" "g"],
    { Spec.cfg [⟨"g", 1, 1⟩] [Spec.be "a" "g"] with ssh := [⟨"bad", ""⟩] },
    by decide, by decide, by decide, by decide⟩

/-- Re-applying the configuration that is still in force does not undo that change: it is
recognised as unchanged and skipped. -/
theorem failed_reconf_not_undone_violated :
    ∃ (x : Ext) (cfg raw : Config) (p : Proxy),
      p = history [(x, cfg), (x, raw), (x, cfg)] {} ∧ p.cfg = some cfg ∧
      p.limitsOf 0 = some (mkLimiter 1, mkLimiter 1) ∧
      cfg.bwLimits = [⟨"g", 1000000, 1000000⟩] :=
  let x : Ext := { Spec.ext with sshOK := fun s => s.name ≠ "bad" }
  let cfg := Verif.Config.normalise x.env (Spec.cfg [⟨"g", 1000000, 1000000⟩] [Spec.be "a" "g"])
  ⟨x, cfg, { Spec.cfg [⟨"g", 1, 1⟩] [Spec.be "a" "g"] with ssh := [⟨"bad", ""⟩] }, _, rfl,
    by decide, by decide, by decide⟩

/-- Non-vacuity of `failed_reconf_limits_partial`: a failing configuration that defines another
group. -/
example : (reconfigure { Spec.ext with sshOK := fun s => s.name ≠ "bad" }
      { Spec.cfg [⟨"h", 1, 1⟩] [Spec.be "a" "h"] with ssh := [⟨"bad", ""⟩] }
      (reconfigure Spec.ext (Spec.cfg [⟨"g", 7, 7⟩] [Spec.be "a" "g"]) {}).2).1 = some "sshca.New" ∧
    (reconfigure Spec.ext (Spec.cfg [⟨"g", 7, 7⟩] [Spec.be "a" "g"]) {}).2.limitKey 0 = some "g" := by
  decide

/-! ## C20 -/

theorem setLimits_mem (lower : String → String) (ls : List BWLimit) (m : BwMap)
    (hlow : ∀ l ∈ ls, lower l.name = l.name) (hnd : (ls.map (·.name)).Nodup)
    (l : BWLimit) (hl : l ∈ ls) :
    setLimits lower ls m l.name = some (mkLimiter l.ingress, mkLimiter l.egress) := by
  induction ls generalizing m with
  | nil => cases hl
  | cons a t ih =>
    rw [setLimits]
    simp only [List.map_cons, List.nodup_cons] at hnd
    rcases List.mem_cons.mp hl with rfl | hl
    · rw [setLimits_other]
      · simp [BwMap.set, hlow l List.mem_cons_self]
      · intro l' hl' he
        rw [hlow l' (List.mem_cons_of_mem _ hl')] at he
        exact hnd.1 (he ▸ List.mem_map_of_mem hl')
    · exact ih _ (fun l hl => hlow l (List.mem_cons_of_mem _ hl)) hnd.2 hl

/-- A limiter for a configured rate: that rate, and bursts of at least 128 KiB. -/
def Spec.limiter (v : Nat) : Limiter :=
  { limit := v, burst := if v < 128 * 1024 then 128 * 1024 else v }

theorem mkLimiter_spec (v : Nat) : mkLimiter v = Spec.limiter v := by
  unfold mkLimiter Spec.limiter
  congr 1
  split <;> omega

/-- What C20 demands of a proxy: every backend of the running configuration that names a group
is limited by exactly that group's values. -/
def Spec.LimitsRight (p : Proxy) : Prop :=
  ∀ cfg, p.cfg = some cfg → ∀ (i : Nat) (be : Backend), cfg.backends[i]? = some be →
    ∀ l ∈ cfg.bwLimits, be.bwLimit = l.name →
      p.limitsOf i = some (Spec.limiter l.ingress, Spec.limiter l.egress)

/-- Group names are written in lower case (as folded by `strings.ToLower` at the time). -/
def Spec.LowerNames (x : Ext) (raw : Config) : Prop :=
  ∀ l ∈ raw.bwLimits, x.env.toLower l.name = l.name

theorem reconfigure_ok {x : Ext} {raw : Config} {p p' : Proxy}
    (h : reconfigure x raw p = (none, p')) :
    p' = p ∨ ∃ cfg, check x.env raw = .ok cfg ∧ p'.cfg = some cfg ∧
      p'.bw = setLimits x.env.toLower cfg.bwLimits p.bw ∧
      p'.limitKey = limitKeys p'.bw cfg.backends := by
  unfold reconfigure at h
  split at h
  · cases h; exact .inl rfl
  · split at h
    · cases h
    · rename_i cfg hc
      split at h
      · cases h
      · dsimp only at h
        split at h
        · cases h
        · split at h
          · cases h
          · cases h; exact .inr ⟨cfg, hc, rfl, rfl, rfl⟩

theorem limitsRight_step (x : Ext) (raw : Config) (p : Proxy) (hp : Spec.LimitsRight p)
    (hlow : Spec.LowerNames x raw)
    (hfail : (reconfigure x raw p).1 ≠ none → raw.bwLimits = []) :
    Spec.LimitsRight (reconfigure x raw p).2 := by
  generalize hr : reconfigure x raw p = r at hfail
  obtain ⟨e, p'⟩ := r
  cases e with
  | some e =>
    have hnil := hfail (by simp)
    have h := failed_reconf_partial x raw p p' e hr
    intro cfg hcfg i be hi l hl hn
    have hcfg' : p.cfg = some cfg := by rw [← h.1]; exact hcfg
    show p'.limitsOf i = _
    rw [failed_reconf_limits_partial x raw p p' e hr i (by rw [hnil]; simp)]
    exact hp cfg hcfg' i be hi l hl hn
  | none =>
    rcases reconfigure_ok hr with rfl | ⟨cfg, hc, h1, h2, h3⟩
    · exact hp
    · intro cfg' hcfg i be hi l hl hn
      have : cfg' = cfg := by rw [h1] at hcfg; exact (Option.some.inj hcfg).symm
      subst this
      have hraw : cfg'.bwLimits = raw.bwLimits := by
        rw [(Verif.Config.check_ok hc).1]; rfl
      have hnd := (Verif.Config.loopNames_none (Verif.Config.check_parts hc).2.2.2.2.2.2.2.1).2.1
      have hv := setLimits_mem x.env.toLower cfg'.bwLimits p.bw (hraw ▸ hlow) hnd l hl
      rw [← h2] at hv
      show p'.limitsOf i = _
      unfold Proxy.limitsOf
      rw [h3]
      simp only [limitKeys, hi, hn, hv, Option.isSome_some, if_true, mkLimiter_spec]

/-- C20 for lower-case group names: after every history of reconfigurations, each backend of
the configuration in force has exactly the values of the group it names. The history may
contain rejected configurations as long as these define no groups (see
`failed_reconf_violated`). Group names of one accepted configuration are distinct by
validation. -/
theorem limits_by_name_partial (hs : List (Ext × Config))
    (hlow : ∀ h ∈ hs, Spec.LowerNames h.1 h.2)
    (hfail : ∀ pre x raw post, hs = pre ++ (x, raw) :: post →
      (reconfigure x raw (history pre {})).1 ≠ none → raw.bwLimits = []) :
    Spec.LimitsRight (history hs {}) := by
  suffices h : ∀ (p : Proxy), Spec.LimitsRight p →
      (∀ pre x raw post, hs = pre ++ (x, raw) :: post →
        (reconfigure x raw (history pre p)).1 ≠ none → raw.bwLimits = []) →
      Spec.LimitsRight (history hs p) from h {} (by intro cfg h; cases h) hfail
  clear hfail
  induction hs with
  | nil => exact fun p hp _ => hp
  | cons a t ih =>
    intro p hp hf
    obtain ⟨x, raw⟩ := a
    refine ih (fun h hh => hlow h (List.mem_cons_of_mem _ hh)) _
      (limitsRight_step x raw p hp (hlow _ List.mem_cons_self) (hf [] x raw t rfl)) ?_
    intro pre x' raw' post he
    exact hf ((x, raw) :: pre) x' raw' post (by rw [he]; rfl)

/-- Non-vacuity: two configurations, the second changes the values and adds a group. -/
example :
    let hs := [(Spec.ext, Spec.cfg [⟨"g", 7, 8⟩] [Spec.be "a" "g"]),
      (Spec.ext, Spec.cfg [⟨"h", 1, 2⟩, ⟨"g", 3, 4⟩] [Spec.be "a" "g", Spec.be "b" "h"])]
    (history hs {}).limitsOf 0 = some (mkLimiter 3, mkLimiter 4) ∧
    (history hs {}).limitsOf 1 = some (mkLimiter 1, mkLimiter 2) ∧
    (∀ h ∈ hs, ∀ l ∈ h.2.bwLimits, h.1.env.toLower l.name = l.name) := by
  decide

theorem set_some {m : BwMap} {lower : String → String} {k : String} (ls : List BWLimit) (h : (m k).isSome) :
    (setLimits lower ls m k).isSome := by
  induction ls generalizing m with
  | nil => exact h
  | cons l ls ih =>
    refine ih ?_
    unfold BwMap.set
    split
    · rfl
    · exact h

/-- The group of a backend is known. -/
theorem key_known (hs : List (Ext × Config)) (i : Nat) (k : String) (h : (history hs {}).limitKey i = some k) :
    ((history hs {}).bw k).isSome := by
  have key : ∀ (hs : List (Ext × Config)) (p : Proxy), (∀ i k, p.limitKey i = some k → (p.bw k).isSome) →
      ∀ i k, (history hs p).limitKey i = some k → ((history hs p).bw k).isSome := by
    intro hs
    induction hs with
    | nil => exact fun p h => h
    | cons a t ih =>
      intro p hp
      obtain ⟨x, raw⟩ := a
      refine ih _ ?_
      intro i k hk
      generalize hr : reconfigure x raw p = r at hk ⊢
      obtain ⟨e, p'⟩ := r
      cases e with
      | some e =>
        have h5 := (failed_reconf_partial x raw p p' e hr).2.2.2.2.1
        dsimp only at hk ⊢
        rw [h5] at hk
        have hp := hp i k hk
        unfold reconfigure at hr
        split at hr
        · cases hr
        · split at hr
          · cases hr; exact hp
          · split at hr
            · cases hr; exact hp
            · dsimp only at hr
              split at hr
              · cases hr; exact set_some _ hp
              · split at hr
                · cases hr; exact set_some _ hp
                · cases hr
      | none =>
        rcases reconfigure_ok hr with rfl | ⟨cfg, -, -, -, h3⟩
        · exact hp i k hk
        · dsimp only at hk ⊢
          rw [h3] at hk
          unfold limitKeys at hk
          split at hk
          · cases hk
          · split at hk
            · rename_i he
              cases hk; exact he
            · cases hk
  exact key hs {} (fun _ _ h => nomatch h) i k h

/-- C19, limits part. Whatever the history and whichever groups the rejected configuration defines, a failed
reconfiguration limits no backend that was not limited. -/
theorem failed_reconf_unlimited (hs : List (Ext × Config)) (x : Ext) (raw : Config) (p' : Proxy) (e : String)
    (h : reconfigure x raw (history hs {}) = (some e, p')) (i : Nat) (hi : (history hs {}).limitsOf i = none) :
    p'.limitsOf i = none := by
  have hk : (history hs {}).limitKey i = none := by
    cases hk : (history hs {}).limitKey i with
    | none => rfl
    | some k =>
      have := key_known hs i k hk
      unfold Proxy.limitsOf at hi
      rw [hk] at hi
      dsimp only at hi
      rw [hi] at this
      cases this
  have h5 := (failed_reconf_partial _ _ _ _ _ h).2.2.2.2.1
  unfold Proxy.limitsOf
  rw [h5, hk]

/-- Non-vacuity: a group whose name the backend could not find, and a rejected configuration that defines it. -/
example :
    let hs := [(Spec.ext, Spec.cfg [⟨"Slow", 7, 8⟩] [Spec.be "a" "Slow"])]
    let x := { Spec.ext with env := { Spec.ext.env with toLower := id }, sshOK := fun _ => false }
    let raw := { Spec.cfg [⟨"Slow", 1, 1⟩] [Spec.be "a" "Slow"] with ssh := [{ name := "s" }] }
    (history hs {}).limitsOf 0 = none ∧ (reconfigure x raw (history hs {})).1.isSome ∧
      (reconfigure x raw (history hs {})).2.bw "Slow" = some (mkLimiter 1, mkLimiter 1) := by
  decide

/-- C20 fails for a group name with an upper-case letter: the configuration is accepted and
the backend is not limited at all. -/
theorem limits_upper_violated :
    ∃ (raw : Config), (reconfigure Spec.ext raw {}).1 = none ∧
      raw.bwLimits = [⟨"Slow", 1000, 1000⟩] ∧
      raw.backends = [Spec.be "a" "Slow"] ∧
      (reconfigure Spec.ext raw {}).2.limitsOf 0 = none :=
  ⟨Spec.cfg [⟨"Slow", 1000, 1000⟩] [Spec.be "a" "Slow"], by decide, rfl, rfl, by decide⟩

/-- C20 fails for two names that differ only in case: the configuration is accepted and the
second group overwrites the first. -/
theorem limits_overwrite_violated :
    ∃ (raw : Config), (reconfigure Spec.ext raw {}).1 = none ∧
      raw.bwLimits = [⟨"slow", 1000, 1000⟩, ⟨"SLOW", 5, 5⟩] ∧
      raw.backends = [Spec.be "a" "slow"] ∧
      (reconfigure Spec.ext raw {}).2.limitsOf 0 = some (mkLimiter 5, mkLimiter 5) :=
  ⟨Spec.cfg [⟨"slow", 1000, 1000⟩, ⟨"SLOW", 5, 5⟩] [Spec.be "a" "slow"],
    by decide, rfl, rfl, by decide⟩

/-! ## C21 -/

/-- The new policy admits the connection: its name is served by a backend of the same mode that
admits its address and, if that backend demands client certificates, its certificate. A
connection that has not announced a server name yet is not subject to any policy. -/
def Spec.Permitted (w : World) (c : Open) : Prop :=
  ∀ sn, c.serverName = some sn →
    ∃ b, w.route sn [c.proto] = .to b ∧ c.oldMode = some (w.be b).mode ∧
      checkIP (w.be b).denyIPs (w.be b).allowIPs c.addr = true ∧
      ∀ acl, (w.be b).clientAuth = some acl →
        ∃ crt, c.cert = some crt ∧ authorize acl crt = true

/-- The full claim: the process survives, exactly the connections that are not permitted are
closed. -/
def Spec.Exact (w : World) (cs : List Open) : Prop :=
  (reAuthorize w cs).length = cs.length ∧
  ∀ (i : Nat) (c : Open), cs[i]? = some c →
    ((reAuthorize w cs)[i]? = some Fate.keep ∧ Spec.Permitted w c) ∨
    ((reAuthorize w cs)[i]? = some Fate.close ∧ ¬ Spec.Permitted w c)

/-- The conditions under which one step of the re-authorization is as specified. -/
def Spec.Safe (w : World) (c : Open) : Prop :=
  ∀ sn, c.serverName = some sn →
    ∃ b m, w.route sn [c.proto] = .to b ∧ c.oldMode = some m ∧
      ((w.be b).mode = m → (w.be b).clientAuth ≠ none → c.cert ≠ none)

/-- C21 for connections whose server name is still served, whose backend is already recorded,
and that have a client certificate if the new backend demands one (and has the same mode). -/
theorem reauth_exact_partial (w : World) (cs : List Open) (h : ∀ c ∈ cs, Spec.Safe w c) :
    Spec.Exact w cs := by
  have one : ∀ c, Spec.Safe w c →
      (reauth1 w c = .keep ∧ Spec.Permitted w c) ∨ (reauth1 w c = .close ∧ ¬ Spec.Permitted w c) := by
    intro c hc
    unfold reauth1
    cases hs : c.serverName with
    | none => left; exact ⟨rfl, fun sn h => by rw [hs] at h; cases h⟩
    | some sn =>
      obtain ⟨b, m, hr, hm, hcert⟩ := hc sn hs
      have key : Spec.Permitted w c ↔ (m = (w.be b).mode ∧
          checkIP (w.be b).denyIPs (w.be b).allowIPs c.addr = true ∧
          ∀ acl, (w.be b).clientAuth = some acl →
            ∃ crt, c.cert = some crt ∧ authorize acl crt = true) := by
        constructor
        · intro hp
          obtain ⟨b', h1, h2, h3, h4⟩ := hp sn hs
          rw [hr] at h1; cases h1
          rw [hm] at h2; cases h2
          exact ⟨rfl, h3, h4⟩
        · rintro ⟨h1, h2, h3⟩ sn' hs'
          rw [hs] at hs'; cases hs'
          exact ⟨b, hr, by rw [hm, h1], h2, h3⟩
      rw [key]
      simp only [hr, hm]
      split
      · rename_i hne; right; exact ⟨rfl, fun h => hne h.1.symm⟩
      · rename_i he
        have he : (w.be b).mode = m := Classical.not_not.mp he
        split
        · rename_i hip; right; exact ⟨rfl, fun h => hip h.2.1⟩
        · rename_i hip
          have hip := Classical.not_not.mp hip
          cases hca : (w.be b).clientAuth with
          | none => left; exact ⟨rfl, he.symm, hip, fun acl h => by cases h⟩
          | some acl =>
            obtain ⟨crt, hcrt⟩ := Option.ne_none_iff_exists'.mp (hcert he (by rw [hca]; simp))
            cases acl with
            | none =>
              left
              exact ⟨rfl, he.symm, hip, fun acl h => by cases h; exact ⟨crt, hcrt, rfl⟩⟩
            | some acl =>
              simp only [hcrt]
              split
              · rename_i ha
                left
                exact ⟨rfl, he.symm, hip, fun acl' h => by cases h; exact ⟨crt, rfl, ha⟩⟩
              · rename_i ha
                right
                refine ⟨rfl, fun h => ?_⟩
                obtain ⟨crt', h1, h2⟩ := h.2.2 _ rfl
                cases h1
                exact ha h2
  induction cs with
  | nil => exact ⟨rfl, fun i c h => by simp at h⟩
  | cons a t ih =>
    have iht := ih fun c hc => h c (List.mem_cons_of_mem _ hc)
    have ha := one a (h a List.mem_cons_self)
    have e : reAuthorize w (a :: t) = reauth1 w a :: reAuthorize w t := by
      rw [reAuthorize]
      rcases ha with ⟨h1, _⟩ | ⟨h1, _⟩ <;> rw [h1]
    unfold Spec.Exact
    rw [e]
    refine ⟨by simp [iht.1], ?_⟩
    intro i c hi
    cases i with
    | zero => simp at hi; subst hi; simpa using ha
    | succ i => simpa using iht.2 i c (by simpa using hi)

/-- Unconditionally, a connection the new policy permits is never closed. -/
theorem reauth_keeps_permitted (w : World) (cs : List Open) (i : Nat) (c : Open)
    (hc : cs[i]? = some c) (hp : Spec.Permitted w c) :
    (reAuthorize w cs)[i]? ≠ some Fate.close := by
  have one : reauth1 w c = .keep := by
    unfold reauth1
    cases hs : c.serverName with
    | none => rfl
    | some sn =>
      obtain ⟨b, h1, h2, h3, h4⟩ := hp sn hs
      simp only [h1, h2, h3]
      simp only [ne_eq, not_true_eq_false, if_false]
      cases hca : (w.be b).clientAuth with
      | none => rfl
      | some acl =>
        obtain ⟨crt, h5, h6⟩ := h4 acl hca
        cases acl with
        | none => rfl
        | some acl => simp [h5, h6]
  induction cs generalizing i with
  | nil => simp at hc
  | cons a t ih =>
    rw [reAuthorize]
    cases i with
    | zero =>
      simp at hc; subst hc
      rw [one]; simp
    | succ i =>
      simp only [List.getElem?_cons_succ] at hc
      split
      · simp
      · simpa using ih i hc

/-- Exactly when the process dies. -/
theorem reauth_crash_iff (w : World) (c : Open) :
    reauth1 w c = .crash ↔ ∃ sn, c.serverName = some sn ∧
      ((∀ b, w.route sn [c.proto] ≠ .to b) ∨
       ∃ b, w.route sn [c.proto] = .to b ∧
        (c.oldMode = none ∨ (c.oldMode = some (w.be b).mode ∧
          checkIP (w.be b).denyIPs (w.be b).allowIPs c.addr = true ∧ c.cert = none ∧
          ∃ acl, (w.be b).clientAuth = some (some acl)))) := by
  unfold reauth1
  cases c.serverName with
  | none => simp
  | some sn =>
    simp only [Option.some.injEq, exists_eq_left']
    cases hr : w.route sn [c.proto] with
    | unexpectedSNI => simp
    | shutdown => simp
    | to b =>
      simp only
      cases hm : c.oldMode with
      | none => simp
      | some m =>
        simp only
        split
        · rename_i h; simp; intro h'; exact absurd h'.symm h
        · rename_i h
          have h := Classical.not_not.mp h
          subst h
          split
          · rename_i hip; simp at hip; simp [hip]
          · rename_i hip
            simp at hip
            cases hca : (w.be b).clientAuth with
            | none => simp [hca]
            | some acl =>
              cases acl with
              | none => simp [hca]
              | some acl =>
                cases hcert : c.cert with
                | none => simp [hip, hca]
                | some crt => simp; split <;> simp

/-- A world that serves only "b", with mode `mode` and the given client authentication. -/
def Spec.worldB (mode : String) (ca : Option (Option (List String))) : World where
  route n _ := if n = "b" then .to 0 else .unexpectedSNI
  be _ := { mode := mode, clientAuth := ca }
  isRevoked _ _ := false
  ocspOK _ := true
  defaultServerName := "b"
  maxOpen := 100

/-- C21 fails: removing a server name while a client is connected to it ends the process. -/
theorem reauth_removed_name_violated :
    ∃ (w : World) (c : Open), c.serverName = some "a" ∧ c.oldMode = some "TCP" ∧
      (∀ b, w.route "a" [c.proto] ≠ .to b) ∧ reAuthorize w [c] = [Fate.crash] :=
  ⟨Spec.worldB "TCP" none, { serverName := some "a", oldMode := some "TCP", addr := some [1, 2, 3, 4] },
    rfl, rfl, by intro b h; simp [Spec.worldB] at h, by decide⟩

/-- C21 fails: a reconfiguration between the moments where a connection's server name and its
backend are recorded (proxy.go:1173-1182) ends the process. -/
theorem reauth_early_phase_violated :
    ∃ (w : World) (c : Open), c.serverName = some "b" ∧ w.route "b" [c.proto] = .to 0 ∧
      c.oldMode = none ∧ reAuthorize w [c] = [Fate.crash] :=
  ⟨Spec.worldB "TCP" none, { serverName := some "b", addr := some [1, 2, 3, 4] }, rfl, by decide, rfl, by decide⟩

/-- C21 fails: adding an ACL of client certificates ends the process if a client without
certificate is connected. -/
theorem reauth_acl_added_violated :
    ∃ (w : World) (c : Open), c.serverName = some "b" ∧ c.oldMode = some "TLS" ∧
      (w.be 0).clientAuth = some (some ["CN=x"]) ∧ c.cert = none ∧
      reAuthorize w [c] = [Fate.crash] :=
  ⟨Spec.worldB "TLS" (some (some ["CN=x"])),
    { serverName := some "b", oldMode := some "TLS", addr := some [1, 2, 3, 4] },
    rfl, rfl, rfl, rfl, by decide⟩

/-- C21 fails: demanding client certificates (without ACL) leaves clients without certificate
connected. -/
theorem reauth_cert_demanded_violated :
    ∃ (w : World) (c : Open), c.serverName = some "b" ∧ ¬ Spec.Permitted w c ∧
      reAuthorize w [c] = [Fate.keep] := by
  refine ⟨Spec.worldB "TLS" (some none),
    { serverName := some "b", oldMode := some "TLS", addr := some [1, 2, 3, 4] },
    rfl, ?_, by decide⟩
  intro h
  obtain ⟨b, _, _, _, h4⟩ := h "b" rfl
  obtain ⟨crt, h5, _⟩ := h4 none rfl
  cases h5

/-- Non-vacuity of `reauth_exact_partial`: one connection kept, one closed because the mode
changed, one not yet routed. -/
example :
    let cs : List Open := [
      { serverName := some "b", oldMode := some "TLS", addr := some [1, 2, 3, 4] },
      { serverName := some "b", oldMode := some "TCP", addr := some [1, 2, 3, 4] },
      { serverName := none }]
    (∀ c ∈ cs, Spec.Safe (Spec.worldB "TLS" none) c) ∧
    reAuthorize (Spec.worldB "TLS" none) cs = [Fate.keep, Fate.close, Fate.keep] := by
  refine ⟨?_, by decide⟩
  intro c hc sn hs
  simp only [List.mem_cons, List.not_mem_nil, or_false] at hc
  rcases hc with rfl | rfl | rfl
  · cases hs; exact ⟨0, "TLS", rfl, rfl, fun _ h => absurd rfl h⟩
  · cases hs; exact ⟨0, "TCP", rfl, rfl, fun _ h => absurd rfl h⟩
  · cases hs

end Verif.Reconf
