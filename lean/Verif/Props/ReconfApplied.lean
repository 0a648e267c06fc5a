import Verif.Props.Reconf
import Verif.Props.ConfigValid
/-
C95: which configurations a running proxy takes over, and that it takes them over completely.
-/
namespace Verif.Reconf

open Verif.Config (Config BWLimit Backend tableOf check Route bad bad_none or_none findSome_none)

/-- Every root of trust named somewhere can be loaded: a certificate authority of this
configuration by asking it, anything else from a file or text. -/
def Spec.RootsLoad (x : Ext) (cfg : Config) (names : List String) : Prop :=
  ∀ n ∈ names, ((∃ q ∈ cfg.pki, q.name = n) → x.caCertOK n = true) ∧
    ((¬ ∃ q ∈ cfg.pki, q.name = n) → x.loadOK n = true)

/-- Everything a checked configuration needs from the outside can be had. -/
structure Spec.Buildable (x : Ext) (cfg : Config) : Prop where
  oidc : ∀ o ∈ cfg.oidc, x.oidcOK o = true
  saml : ∀ s ∈ cfg.saml, x.samlOK s = true
  passkeys : ∀ (i : Nat) (pp : Verif.Config.Passkey), cfg.passkeys[i]? = some pp →
    x.passkeyOK pp = true ∧
    ((∃ o ∈ cfg.oidc, o.name = pp.identityProvider) ∨
     (∃ s ∈ cfg.saml, s.name = pp.identityProvider) ∨
     ∃ j qq, j < i ∧ cfg.passkeys[j]? = some qq ∧ qq.name = pp.identityProvider)
  pki : ∀ q ∈ cfg.pki, x.pkiOK q = true
  sso : ∀ be ∈ cfg.backends, ∀ s, be.sso = some s →
    (∃ o ∈ cfg.oidc, o.name = s.provider) ∨ (∃ q ∈ cfg.saml, q.name = s.provider) ∨
    ∃ q ∈ cfg.passkeys, q.name = s.provider
  clientCAs : ∀ be ∈ cfg.backends, ∀ ca, be.clientAuth = some ca → Spec.RootsLoad x cfg ca.rootCAs
  serverCAs : ∀ be ∈ cfg.backends, Spec.RootsLoad x cfg be.forwardRootCAs
  overrideCAs : ∀ be ∈ cfg.backends, ∀ po ∈ be.pathOverrides, Spec.RootsLoad x cfg po.forwardRootCAs
  ssh : ∀ s ∈ cfg.ssh, x.sshOK s = true

theorem rootCAs_iff (x : Ext) (cfg : Config) (names : List String) :
    rootCAs x cfg names = none ↔ Spec.RootsLoad x cfg names := by
  unfold rootCAs Spec.RootsLoad
  rw [findSome_none]
  refine forall_congr' fun n => forall_congr' fun _ => ?_
  have hm : n ∈ cfg.pki.map (·.name) ↔ ∃ q ∈ cfg.pki, q.name = n := List.mem_map
  split
  · rename_i h
    rw [bad_none]
    simp [hm.mp h]
  · rename_i h
    rw [bad_none]
    rw [hm] at h
    simp [h]

theorem passkeyLoop_iff (x : Ext) (seen : List String) (ps : List Verif.Config.Passkey) :
    passkeyLoop x seen ps = none ↔ ∀ (i : Nat) (pp : Verif.Config.Passkey), ps[i]? = some pp →
      x.passkeyOK pp = true ∧ (pp.identityProvider ∈ seen ∨
        ∃ j qq, j < i ∧ ps[j]? = some qq ∧ qq.name = pp.identityProvider) := by
  induction ps generalizing seen with
  | nil => simp [passkeyLoop]
  | cons a t ih =>
    rw [passkeyLoop, or_none, or_none, bad_none, bad_none, ih]
    constructor
    · rintro ⟨h1, h2, h3⟩ i pp hi
      cases i with
      | zero =>
        simp only [List.getElem?_cons_zero, Option.some.injEq] at hi
        subst hi
        exact ⟨by simpa using h2, Or.inl (by simpa using h1)⟩
      | succ i =>
        simp only [List.getElem?_cons_succ] at hi
        obtain ⟨k1, k2⟩ := h3 i pp hi
        refine ⟨k1, ?_⟩
        rcases k2 with k2 | ⟨j, qq, hj, hq, hn⟩
        · rcases List.mem_append.mp k2 with k2 | k2
          · exact Or.inl k2
          · exact Or.inr ⟨0, a, by omega, rfl, (List.mem_singleton.mp k2).symm⟩
        · exact Or.inr ⟨j + 1, qq, by omega, by simpa using hq, hn⟩
    · intro h
      have h0 := h 0 a rfl
      refine ⟨?_, by simpa using h0.1, ?_⟩
      · rcases h0.2 with h | ⟨j, _, hj, _⟩
        · simpa using h
        · omega
      · intro i pp hi
        obtain ⟨k1, k2⟩ := h (i + 1) pp (by simpa using hi)
        refine ⟨k1, ?_⟩
        rcases k2 with k2 | ⟨j, qq, hj, hq, hn⟩
        · exact Or.inl (List.mem_append_left _ k2)
        · cases j with
          | zero =>
            simp only [List.getElem?_cons_zero, Option.some.injEq] at hq
            subst hq
            exact Or.inl (List.mem_append_right _ (by simp [hn]))
          | succ j => exact Or.inr ⟨j, qq, by omega, by simpa using hq, hn⟩

theorem steps_iff (x : Ext) (cfg : Config) :
    providers x cfg = none ∧ cfg.backends.findSome? (buildBackend x cfg) = none ∧
      (cfg.ssh.findSome? fun s => bad (x.sshOK s = false) "sshca.New") = none ↔
      Spec.Buildable x cfg := by
  have hb : ∀ be, buildBackend x cfg be = none ↔
      (∀ s, be.sso = some s → (∃ o ∈ cfg.oidc, o.name = s.provider) ∨
        (∃ q ∈ cfg.saml, q.name = s.provider) ∨ ∃ q ∈ cfg.passkeys, q.name = s.provider) ∧
      (∀ ca, be.clientAuth = some ca → Spec.RootsLoad x cfg ca.rootCAs) ∧
      Spec.RootsLoad x cfg be.forwardRootCAs ∧
      ∀ po ∈ be.pathOverrides, Spec.RootsLoad x cfg po.forwardRootCAs := by
    intro be
    unfold buildBackend
    rw [or_none, or_none, or_none, findSome_none, rootCAs_iff]
    refine and_congr ?_ (and_congr ?_ (and_congr Iff.rfl ?_))
    · cases be.sso with
      | none => simp
      | some s =>
        simp only [bad_none, Verif.Config.Config.providerNames, List.mem_append, List.mem_map,
          Option.some.injEq, forall_eq', Decidable.not_not, or_assoc]
    · cases be.clientAuth with
      | none => simp
      | some ca => simp [rootCAs_iff]
    · simp only [rootCAs_iff]
  unfold providers
  simp only [or_none, findSome_none, bad_none, passkeyLoop_iff, hb, Bool.not_eq_false,
    List.mem_append, List.mem_map, or_assoc]
  constructor
  · rintro ⟨⟨h1, h2, h3, h4⟩, h5, h6⟩
    exact ⟨h1, h2, h3, h4, fun be hbe => (h5 be hbe).1, fun be hbe => (h5 be hbe).2.1,
      fun be hbe => (h5 be hbe).2.2.1, fun be hbe => (h5 be hbe).2.2.2, h6⟩
  · rintro ⟨h1, h2, h3, h4, h5, h6, h7, h8, h9⟩
    exact ⟨⟨h1, h2, h3, h4⟩, fun be hbe => ⟨h5 be hbe, h6 be hbe, h7 be hbe, h8 be hbe⟩, h9⟩

/-- C95 (1): a configuration is taken over without error if and only if it is the one in force,
or it is valid and everything it needs from outside can be had. -/
theorem reconf_accepted_iff (x : Ext) (raw : Config) (p : Proxy) :
    (reconfigure x raw p).1 = none ↔
      p.cfg = some raw ∨ ∃ cfg, check x.env raw = .ok cfg ∧ Spec.Buildable x cfg := by
  have hs := fun cfg => steps_iff x cfg
  unfold reconfigure
  split
  · rename_i h; simp [h]
  · rename_i h
    simp only [h, false_or]
    cases hc : check x.env raw with
    | error e => simp
    | ok cfg =>
      simp only [Except.ok.injEq, exists_eq_left', ← hs cfg]
      cases h1 : providers x cfg with
      | some e => simp
      | none =>
        dsimp only
        cases h2 : cfg.backends.findSome? (buildBackend x cfg) with
        | some e => simp
        | none =>
          dsimp only
          cases h3 : cfg.ssh.findSome? fun s => bad (x.sshOK s = false) "sshca.New" with
          | some e => simp
          | none => simp

/-- C95 (2): when a different configuration is taken over, everything that decides what
connections experience comes from it: the configuration in force, the default server name, the
certificate authorities and the routing of every server name and protocol list; the backends of
the previous configuration are told to close (once), and one re-authorization of the open
connections is started. Routing is stated for non-empty protocol names as in C04. -/
theorem reconf_applied (x : Ext) (raw : Config) (p p' : Proxy)
    (h : reconfigure x raw p = (none, p')) (hnew : p.cfg ≠ some raw) :
    ∃ cfg, check x.env raw = .ok cfg ∧ p'.cfg = some cfg ∧
      p'.defServerName = cfg.defaultServerName ∧
      (∀ n, n ∈ p'.pkis ↔ ∃ q ∈ cfg.pki, q.name = n) ∧
      p'.retired = p.retired ++ p.cfg.toList ∧ p'.reauths = p.reauths + 1 ∧
      ((∀ be ∈ cfg.backends, "" ∉ be.alpnProtos.getD []) →
        ∀ (down : Nat → Bool) (n : String) (offered : List String), "" ∉ offered →
          Verif.Config.route p'.table down n offered =
            match Verif.Config.Spec.route cfg.backends n offered with
            | none => .unexpectedSNI
            | some i => if down i then .shutdown else .to i) := by
  unfold reconfigure at h
  rw [if_neg hnew] at h
  split at h
  · cases h
  · rename_i cfg hc
    split at h
    · cases h
    · dsimp only at h
      split at h
      · cases h
      · split at h
        · cases h
        · cases h
          exact ⟨cfg, hc, rfl, rfl, fun n => List.mem_map, rfl, rfl,
            fun hne down n offered ho => Verif.Config.routing_partial _ _ _ hc hne down n offered ho⟩

/-- C95 (3): applying the configuration in force again changes nothing: no backend is closed and
no connection is re-examined. -/
theorem reconf_same (x : Ext) (raw : Config) (p : Proxy) (h : p.cfg = some raw) :
    reconfigure x raw p = (none, p) := by
  unfold reconfigure
  rw [if_pos h]

/-- C95 (4): over every history, each accepted configuration is retired exactly when it is
replaced: the retired ones together with the one in force are those that were taken over, in
order, and as many re-authorizations were started. -/
def Spec.taken : List (Ext × Config) → Proxy → List Config
  | [], _ => []
  | (x, raw) :: t, p =>
    (if (reconfigure x raw p).1 = none ∧ p.cfg ≠ some raw then
      match check x.env raw with
      | .ok cfg => [cfg]
      | .error _ => []
    else []) ++ Spec.taken t (reconfigure x raw p).2

theorem retired_history (hs : List (Ext × Config)) (p : Proxy) :
    (history hs p).retired ++ (history hs p).cfg.toList =
      p.retired ++ p.cfg.toList ++ Spec.taken hs p ∧
    (history hs p).reauths = p.reauths + (Spec.taken hs p).length := by
  induction hs generalizing p with
  | nil => simp [history, Spec.taken]
  | cons a t ih =>
    obtain ⟨x, raw⟩ := a
    rw [history, Spec.taken]
    obtain ⟨h1, h2⟩ := ih (reconfigure x raw p).2
    rw [h1, h2]
    generalize hr : reconfigure x raw p = r
    obtain ⟨e, p'⟩ := r
    cases e with
    | some e =>
      obtain ⟨k1, -, -, -, -, k2, k3⟩ := failed_reconf_partial x raw p p' e hr
      simp [k1, k2, k3]
    | none =>
      by_cases hn : p.cfg = some raw
      · rw [reconf_same x raw p hn] at hr
        cases hr
        simp [hn]
      · obtain ⟨cfg, c1, c2, -, -, c3, c4, -⟩ := reconf_applied x raw p p' hr hn
        simp only [c1, c2, c3, c4, hn, ne_eq, not_false_iff, and_true, if_true, List.length_append,
          Option.toList_some, List.append_assoc, List.length_cons, List.length_nil]
        exact ⟨trivial, by omega⟩

/-- Non-vacuity: a second configuration replaces the first, then a bad one is refused. -/
example :
    let c1 := Spec.cfg [] [Spec.be "a" ""]
    let c2 := Spec.cfg [] [Spec.be "b" ""]
    let bad := { Spec.cfg [] [Spec.be "c" ""] with ssh := [⟨"bad", ""⟩] }
    let x : Ext := { Spec.ext with sshOK := fun s => s.name ≠ "bad" }
    let p := history [(x, c1), (x, c2), (x, bad)] {}
    p.reauths = 2 ∧ p.retired.length = 1 ∧
      Verif.Config.route p.table (fun _ => false) "b" [] = .to 0 ∧
      Verif.Config.route p.table (fun _ => false) "a" [] = .unexpectedSNI ∧
      (reconfigure x bad (history [(x, c1), (x, c2)] {})).1 = some "sshca.New" := by
  decide +kernel

end Verif.Reconf
