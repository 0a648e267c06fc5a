import Verif.Model.Revoke

/-!
# C74: revoking unused certificates
-/

namespace Verif.Revoke

/-- Whether a name is configured on a backend. -/
def Spec.Configured (cfg : Cfg) (n : Str) : Prop := ∃ be ∈ cfg.backends, n ∈ be

theorem mem_names {cfg : Cfg} {n : Str} : n ∈ names cfg ↔ Spec.Configured cfg n := by
  unfold names Spec.Configured
  rw [List.mem_flatMap]
  rfl

theorem mem_unused {ns : List Str} {certs : List (Str × Cert)} {e : Str × Cert}
    (h : e ∈ unused ns certs) :
    e ∈ certs ∧ (∀ n ∈ e.2.dnsNames, n ∉ ns) ∧ e.2.dnsNames ≠ [] := by
  unfold unused at h
  rw [List.mem_filter] at h
  obtain ⟨h1, h2⟩ := h
  rw [Bool.and_eq_true_iff] at h2
  obtain ⟨h2, h3⟩ := h2
  refine ⟨h1, ?_, ?_⟩
  · intro n hn hns
    have : (e.2.dnsNames.any fun n => decide (n ∈ ns)) = true := by
      rw [List.any_eq_true]
      exact ⟨n, hn, decide_eq_true hns⟩
    rw [this] at h2
    cases h2
  · intro he
    rw [he] at h3
    simp at h3

theorem mem_allCerts {c : Cache} {e : Str × Cert} (h : e ∈ allCerts c) :
    (e.1, some e.2) ∈ c ∧ e.1 ≠ accountKey := by
  unfold allCerts at h
  rw [List.mem_filterMap] at h
  obtain ⟨x, hx, h⟩ := h
  obtain ⟨k, v⟩ := x
  dsimp only at h
  split at h
  · cases h
  · rename_i hk
    cases v with
    | none => cases h
    | some c =>
      cases h
      exact ⟨hx, hk⟩

/-- What the thread knows. -/
structure Inv (s : State) : Prop where
  /-- an event is about a certificate none of whose names is in the names taken -/
  log : ∀ k c ok t, Event.asked k c ok t ∈ s.log → ∃ ns, s.snap = some (true, ns) ∧
    (∀ n ∈ c.dnsNames, n ∉ ns) ∧ c.dnsNames ≠ [] ∧ t ≤ c.notAfter ∧ k ≠ accountKey
  none : ∀ on, s.pc = .start ∨ s.pc = .opt on → s.snap = none ∧ s.log = []
  names : ∀ on ns, s.pc = .names on ns → s.snap = some (on, ns) ∧ s.log = []
  loop : ∀ all rest t, s.pc = .loop all rest t → ∃ ns, s.snap = some (true, ns) ∧
    (∀ e ∈ rest, (∀ n ∈ e.2.dnsNames, n ∉ ns) ∧ e.2.dnsNames ≠ [] ∧ e.1 ≠ accountKey ∧ e.1 ∈ all) ∧
    (∀ k c ok t, Event.asked k c ok t ∈ s.log → k ∈ all) ∧ accountKey ∉ all ∧
    ∀ k, Event.deleted k ∉ s.log
  delete : ∀ all, s.pc = .delete all →
    (∀ k c ok t, Event.asked k c ok t ∈ s.log → k ∈ all) ∧ accountKey ∉ all ∧
    ∀ k, Event.deleted k ∉ s.log
  fin : s.pc = .done false → (∀ k c ok t, Event.asked k c ok t ∈ s.log →
    ∃ all l1 l2, s.log = l1 ++ .deleted all :: l2 ∧ k ∈ all ∧ Event.asked k c ok t ∈ l2)
  err : s.pc = .done true → ∀ k, Event.deleted k ∉ s.log
  del : ∀ all, Event.deleted all ∈ s.log → accountKey ∉ all

variable {sortKeys : List (Str × Cert) → List (Str × Cert)}

theorem inv_step (hs : ∀ l e, e ∈ sortKeys l → e ∈ l) {s : State} (i : Inv s) (o : Op) :
    Inv (step sortKeys s o) := by
  cases o with
  | reconfigure c => exact ⟨i.log, i.none, i.names, i.loop, i.delete, i.fin, i.err, i.del⟩
  | store k v => exact ⟨i.log, i.none, i.names, i.loop, i.delete, i.fin, i.err, i.del⟩
  | step ok t =>
    show Inv (thread sortKeys s ok t)
    unfold thread
    cases hpc : s.pc with
    | start =>
      obtain ⟨h1, h2⟩ := i.none true (.inl hpc)
      refine ⟨i.log, fun _ _ => ⟨h1, h2⟩, fun _ _ h => ?_, fun _ _ _ h => ?_, fun _ h => ?_,
        fun h => ?_, fun h => ?_, i.del⟩ <;> cases h
    | opt on =>
      obtain ⟨h1, h2⟩ := i.none on (.inr hpc)
      refine ⟨?_, fun _ h => ?_, fun _ _ h => ?_, fun _ _ _ h => ?_, fun _ h => ?_, fun h => ?_,
        fun h => ?_, i.del⟩
      · intro k c ok t h
        have : Event.asked k c ok t ∈ s.log := h
        rw [h2] at this
        cases this
      · rcases h with h | h <;> cases h
      · cases h
        exact ⟨rfl, h2⟩
      all_goals cases h
    | names on ns =>
      obtain ⟨h1, h2⟩ := i.names on ns hpc
      dsimp only
      split
      · refine ⟨i.log, fun _ h => ?_, fun _ _ h => ?_, fun _ _ _ h => ?_, fun _ h => ?_, fun h => ?_,
          fun _ k h => ?_, i.del⟩
        · rcases h with h | h <;> cases h
        · cases h
        · cases h
        · cases h
        · cases h
        · have : Event.deleted k ∈ s.log := h
          rw [h2] at this
          cases this
      · split
        · refine ⟨i.log, fun _ h => ?_, fun _ _ h => ?_, fun _ _ _ h => ?_, fun _ h => ?_,
            fun _ k c ok t h => ?_, fun h => ?_, i.del⟩
          · rcases h with h | h <;> cases h
          · cases h
          · cases h
          · cases h
          · have : Event.asked k c ok t ∈ s.log := h
            rw [h2] at this
            cases this
          · cases h
        · rename_i hon
          have hon : on = true := by simpa using hon
          subst hon
          refine ⟨i.log, fun _ h => ?_, fun _ _ h => ?_, fun all rest t' h => ?_, fun _ h => ?_,
            fun h => ?_, fun h => ?_, i.del⟩
          · rcases h with h | h <;> cases h
          · cases h
          · cases h
            refine ⟨ns, h1, ?_, ?_, ?_, ?_⟩
            · intro e he
              obtain ⟨h3, h4, h5⟩ := mem_unused (hs _ e he)
              exact ⟨h4, h5, (mem_allCerts h3).2, List.mem_map_of_mem he⟩
            · intro k c ok t h
              have : Event.asked k c ok t ∈ s.log := h
              rw [h2] at this
              cases this
            · intro h
              rw [List.mem_map] at h
              obtain ⟨e, he, hk⟩ := h
              obtain ⟨h3, -, -⟩ := mem_unused (hs _ e he)
              exact (mem_allCerts h3).2 hk
            · intro k h
              have : Event.deleted k ∈ s.log := h
              rw [h2] at this
              cases this
          · cases h
          · cases h
          · cases h
    | loop all rest now =>
      obtain ⟨ns, h1, h2, h3, h4, h5⟩ := i.loop all rest now hpc
      cases rest with
      | nil =>
        refine ⟨i.log, fun _ h => ?_, fun _ _ h => ?_, fun _ _ _ h => ?_, fun _ h => ?_, fun h => ?_,
          fun h => ?_, i.del⟩
        · rcases h with h | h <;> cases h
        · cases h
        · cases h
        · cases h
          exact ⟨h3, h4, h5⟩
        · cases h
        · cases h
      | cons e r =>
        dsimp only
        split
        · refine ⟨i.log, fun _ h => ?_, fun _ _ h => ?_, fun _ _ _ h => ?_, fun _ h => ?_,
            fun h => ?_, fun h => ?_, i.del⟩
          · rcases h with h | h <;> cases h
          · cases h
          · cases h
            exact ⟨ns, h1, fun e' he' => h2 e' (List.mem_cons_of_mem _ he'), h3, h4, h5⟩
          · cases h
          · cases h
          · cases h
        · rename_i hna
          obtain ⟨g1, g2, g3, g4⟩ := h2 e List.mem_cons_self
          have hlog : ∀ k c ok' t', Event.asked k c ok' t' ∈ Event.asked e.1 e.2 ok now :: s.log →
              k ∈ all := by
            intro k c ok' t' h
            rcases List.mem_cons.1 h with h | h
            · cases h
              exact g4
            · exact h3 k c ok' t' h
          have hdel : ∀ k, Event.deleted k ∉ Event.asked e.1 e.2 ok now :: s.log := by
            intro k h
            rcases List.mem_cons.1 h with h | h
            · cases h
            · exact h5 k h
          refine ⟨?_, fun _ h => ?_, fun _ _ h => ?_, fun _ _ _ h => ?_, fun _ h => ?_,
            fun h => ?_, fun _ => hdel, fun all' h => absurd h (hdel all')⟩
          · intro k c ok' t' h
            rcases List.mem_cons.1 h with h | h
            · cases h
              exact ⟨ns, h1, g1, g2, by omega, g3⟩
            · exact i.log k c ok' t' h
          · rcases h with h | h <;> dsimp only at h <;> split at h <;> cases h
          · dsimp only at h; split at h <;> cases h
          · dsimp only at h
            split at h
            · cases h
              exact ⟨ns, h1, fun e' he' => h2 e' (List.mem_cons_of_mem _ he'), hlog, h4, hdel⟩
            · cases h
          · dsimp only at h; split at h <;> cases h
          · dsimp only at h; split at h <;> cases h
    | delete all =>
      obtain ⟨h3, h4, h5⟩ := i.delete all hpc
      dsimp only
      split
      · refine ⟨?_, fun _ h => ?_, fun _ _ h => ?_, fun _ _ _ h => ?_, fun _ h => ?_,
            fun _ k c ok t h => ?_, fun h => ?_, fun all' h => ?_⟩
        · intro k c ok' t' h
          rcases List.mem_cons.1 h with h | h
          · cases h
          · exact i.log k c ok' t' h
        · rcases h with h | h <;> cases h
        · cases h
        · cases h
        · cases h
        · rcases List.mem_cons.1 h with h | h
          · cases h
          · exact ⟨all, [], s.log, rfl, h3 k c ok t h, h⟩
        · cases h
        · rcases List.mem_cons.1 h with h | h
          · cases h
            exact h4
          · exact absurd h (h5 all')
      · refine ⟨i.log, fun _ h => ?_, fun _ _ h => ?_, fun _ _ _ h => ?_, fun _ h => ?_,
          fun h => ?_, fun _ => h5, i.del⟩
        · rcases h with h | h <;> cases h
        · cases h
        · cases h
        · cases h
        · cases h
    | done err => exact i

theorem inv_run (hs : ∀ l e, e ∈ sortKeys l → e ∈ l) : ∀ (ops : List Op) {s : State}, Inv s →
    Inv (run sortKeys ops s)
  | [], _, i => i
  | o :: os, _, i => inv_run hs os (inv_step hs i o)

theorem inv_init (cfg : Cfg) (cache : Cache) : Inv (init cfg cache) where
  log := fun _ _ _ _ h => by cases h
  none := fun _ _ => ⟨rfl, rfl⟩
  names := fun _ _ h => by cases h
  loop := fun _ _ _ h => by cases h
  delete := fun _ h => by cases h
  fin := fun h => by cases h
  err := fun h => by cases h
  del := fun _ h => by cases h

/-- The option and the names the thread sees are those of configurations in force: the option of one
in force when it starts, the names of one in force when it takes them. -/
theorem snap_config (hs : ∀ l e, e ∈ sortKeys l → e ∈ l) : ∀ (ops : List Op) (s : State) (p : Cfg → Prop),
    p s.cfg → (∀ c, Op.reconfigure c ∈ ops → p c) →
    (∀ on ns, s.snap = some (on, ns) → ∃ c, p c ∧ ns = names c) →
    ∀ on ns, (run sortKeys ops s).snap = some (on, ns) → ∃ c, p c ∧ ns = names c
  | [], _, _, _, _, h => h
  | o :: os, s, p, h0, h1, h2 => by
    refine snap_config hs os _ p ?_ (fun c hc => h1 c (List.mem_cons_of_mem _ hc)) ?_
    · cases o with
      | reconfigure c => exact h1 c List.mem_cons_self
      | store k v => exact h0
      | step ok t =>
        show p (thread sortKeys s ok t).cfg
        have : (thread sortKeys s ok t).cfg = s.cfg := by
          unfold thread
          repeat' split
          all_goals rfl
        rw [this]
        exact h0
    · cases o with
      | reconfigure c => exact h2
      | store k v => exact h2
      | step ok t =>
        intro on ns h
        have hsn : (thread sortKeys s ok t).snap = s.snap ∨
            ∃ on', (thread sortKeys s ok t).snap = some (on', names s.cfg) := by
          unfold thread
          repeat' split
          all_goals first | exact .inl rfl | exact .inr ⟨_, rfl⟩
        have h : (thread sortKeys s ok t).snap = some (on, ns) := h
        rcases hsn with hsn | ⟨on', hsn⟩
        · exact h2 on ns (hsn ▸ h)
        · rw [hsn] at h
          cases h
          exact ⟨s.cfg, h0, rfl⟩

/-- C74: with the option off (in every configuration) nothing is revoked and nothing deleted. -/
theorem revoke_disabled (hs : ∀ l e, e ∈ sortKeys l → e ∈ l) (cfg : Cfg) (cache : Cache)
    (ops : List Op) (h0 : cfg.revoke = some false)
    (h1 : ∀ c, Op.reconfigure c ∈ ops → c.revoke = some false) :
    (run sortKeys ops (init cfg cache)).log = [] := by
  have aux : ∀ (ops : List Op) (s : State), (∀ c, Op.reconfigure c ∈ ops → c.revoke = some false) →
      s.cfg.revoke = some false → s.log = [] →
      (s.pc = .start ∨ s.pc = .opt false ∨ (∃ ns, s.pc = .names false ns) ∨ ∃ e, s.pc = .done e) →
      (run sortKeys ops s).log = [] := by
    intro ops
    induction ops with
    | nil => intro s _ _ h _; exact h
    | cons o os ih =>
      intro s h1 h2 h3 h4
      refine ih _ (fun c hc => h1 c (List.mem_cons_of_mem _ hc)) ?_ ?_ ?_
      · cases o with
        | reconfigure c => exact h1 c List.mem_cons_self
        | store k v => exact h2
        | step ok t =>
          show (thread sortKeys s ok t).cfg.revoke = _
          have : (thread sortKeys s ok t).cfg = s.cfg := by
            unfold thread
            repeat' split
            all_goals rfl
          rw [this]
          exact h2
      · cases o with
        | reconfigure c => exact h3
        | store k v => exact h3
        | step ok t =>
          show (thread sortKeys s ok t).log = _
          unfold thread
          rcases h4 with h | h | ⟨ns, h⟩ | ⟨e, h⟩
          · rw [h]; exact h3
          · rw [h]; exact h3
          · rw [h]; cases ok <;> exact h3
          · rw [h]; exact h3
      · cases o with
        | reconfigure c => exact h4
        | store k v => exact h4
        | step ok t =>
          have e : step sortKeys s (.step ok t) = thread sortKeys s ok t := rfl
          rw [e]
          unfold thread
          rcases h4 with h | h | ⟨ns, h⟩ | ⟨e, h⟩
          · rw [h]
            refine .inr (.inl ?_)
            dsimp only
            rw [h2]
            rfl
          · rw [h]; exact .inr (.inr (.inl ⟨_, rfl⟩))
          · rw [h]
            cases ok
            · exact .inr (.inr (.inr ⟨_, rfl⟩))
            · exact .inr (.inr (.inr ⟨_, rfl⟩))
          · rw [h]; exact .inr (.inr (.inr ⟨e, h⟩))
  exact aux ops (init cfg cache) h1 h0 rfl (.inl rfl)

/-- C74, what holds: the clean-up asks only for unexpired certificates with a name, none of whose names
is on a backend of some configuration that was in force while it ran, never for the account key, and
only if some such configuration has the option on.
Missing: the configuration may have changed since the names were taken
(`revoke_reconfigured_violated`). -/
theorem revoke_unused_partial (hs : ∀ l e, e ∈ sortKeys l → e ∈ l) (cfg : Cfg) (cache : Cache)
    (ops : List Op) (k : Str) (c : Cert) (ok : Bool) (t : Nat)
    (h : Event.asked k c ok t ∈ (run sortKeys ops (init cfg cache)).log) :
    ∃ cfg', (cfg' = cfg ∨ Op.reconfigure cfg' ∈ ops) ∧ (∀ n ∈ c.dnsNames, ¬ Spec.Configured cfg' n) ∧
      c.dnsNames ≠ [] ∧ t ≤ c.notAfter ∧ k ≠ accountKey ∧
      ∃ on, (on = cfg ∨ Op.reconfigure on ∈ ops) ∧ on.revoke ≠ some false := by
  obtain ⟨ns, h1, h2, h3, h4, h5⟩ := (inv_run hs ops (inv_init cfg cache)).log k c ok t h
  obtain ⟨c', hp, hn⟩ := snap_config hs ops (init cfg cache)
    (fun x => x = cfg ∨ Op.reconfigure x ∈ ops) (.inl rfl) (fun c hc => .inr hc)
    (fun _ _ h => by cases h) true ns h1
  refine ⟨c', hp, fun n hn' hc => h2 n hn' (hn ▸ mem_names.2 hc), h3, h4, h5, ?_⟩
  refine Classical.byContradiction fun hon => ?_
  have hoff : ∀ x, (x = cfg ∨ Op.reconfigure x ∈ ops) → x.revoke = some false := fun x hx =>
    Classical.byContradiction fun hne => hon ⟨x, hx, hne⟩
  rw [revoke_disabled hs cfg cache ops (hoff cfg (.inl rfl)) (fun c hc => hoff c (.inr hc))] at h
  cases h

/-- C74 without reconfiguration: none of the names is configured on a backend. -/
theorem revoke_unused_static (hs : ∀ l e, e ∈ sortKeys l → e ∈ l) (cfg : Cfg) (cache : Cache)
    (ops : List Op) (hno : ∀ c, Op.reconfigure c ∉ ops) (k : Str) (c : Cert) (ok : Bool) (t : Nat)
    (h : Event.asked k c ok t ∈ (run sortKeys ops (init cfg cache)).log) :
    (∀ n ∈ c.dnsNames, ¬ Spec.Configured cfg n) ∧ t ≤ c.notAfter ∧ cfg.revoke ≠ some false := by
  obtain ⟨cfg', hc, h1, -, h2, -, on, hon, h3⟩ := revoke_unused_partial hs cfg cache ops k c ok t h
  rcases hc with rfl | hc
  · rcases hon with rfl | hon
    · exact ⟨h1, h2, h3⟩
    · exact absurd hon (hno on)
  · exact absurd hc (hno cfg')

/-- C74: if the clean-up succeeds, every certificate it asked to revoke was deleted from the cache
afterwards; the account key is never deleted. -/
theorem revoke_deleted_partial (hs : ∀ l e, e ∈ sortKeys l → e ∈ l) (cfg : Cfg) (cache : Cache)
    (ops : List Op) (hd : (run sortKeys ops (init cfg cache)).pc = .done false) (k : Str) (c : Cert)
    (ok : Bool) (t : Nat) (h : Event.asked k c ok t ∈ (run sortKeys ops (init cfg cache)).log) :
    ∃ all l1 l2, (run sortKeys ops (init cfg cache)).log = l1 ++ .deleted all :: l2 ∧ k ∈ all ∧
      Event.asked k c ok t ∈ l2 :=
  (inv_run hs ops (inv_init cfg cache)).fin hd k c ok t h

theorem account_kept (hs : ∀ l e, e ∈ sortKeys l → e ∈ l) (cfg : Cfg) (cache : Cache)
    (ops : List Op) (v : Option Cert) (h : (accountKey, v) ∈ cache)
    (hst : ∀ v, Op.store accountKey v ∉ ops) :
    (accountKey, v) ∈ (run sortKeys ops (init cfg cache)).cache := by
  have aux : ∀ (ops : List Op) (s : State), Inv s → (∀ v, Op.store accountKey v ∉ ops) →
      (accountKey, v) ∈ s.cache → (accountKey, v) ∈ (run sortKeys ops s).cache := by
    intro ops
    induction ops with
    | nil => intro s _ _ h; exact h
    | cons o os ih =>
      intro s i hn hm
      refine ih _ (inv_step hs i o) (fun v h => hn v (List.mem_cons_of_mem _ h)) ?_
      cases o with
      | reconfigure c => exact hm
      | store k w =>
        refine List.mem_cons_of_mem _ (List.mem_filter.2 ⟨hm, ?_⟩)
        have : accountKey ≠ k := fun h => hn w (h ▸ List.mem_cons_self)
        simpa using this
      | step ok t =>
        show _ ∈ (thread sortKeys s ok t).cache
        unfold thread
        split
        · exact hm
        · exact hm
        · split
          · exact hm
          · dsimp only; split <;> exact hm
        · split
          · exact hm
          · split <;> exact hm
        · rename_i all hpc
          split
          · refine List.mem_filter.2 ⟨hm, ?_⟩
            have := (i.delete all hpc).2.1
            simpa using this
          · exact hm
        · exact hm
  exact aux ops (init cfg cache) (inv_init cfg cache) hst h

/-- C74 (the account). The ACME account key, under the name that the ACME library gives it, stays in the cache. -/
theorem account_key_kept (hs : ∀ l e, e ∈ sortKeys l → e ∈ l) (cfg : Cfg) (cache : Cache)
    (ops : List Op) (v : Option Cert) (h : ("acme_account+key".toList, v) ∈ cache)
    (hst : ∀ v, Op.store "acme_account+key".toList v ∉ ops) :
    ("acme_account+key".toList, v) ∈ (run sortKeys ops (init cfg cache)).cache :=
  account_kept hs cfg cache ops v h hst

/-- What is left to do, or done, of the certificates `l` at time `t`. -/
def Progress (l : List (Str × Cert)) (t : Nat) (s : State) : Prop :=
  (∃ all rest, s.pc = .loop all rest t ∧ ∀ e ∈ l, e ∈ rest ∨ e.2.notAfter < t ∨ Event.asked e.1 e.2 true t ∈ s.log) ∨
  ((∃ all, s.pc = .delete all) ∨ s.pc = .done false) ∧ (∀ e ∈ l, e.2.notAfter < t ∨ Event.asked e.1 e.2 true t ∈ s.log) ∨
  s.pc = .done true

theorem progress_step {l : List (Str × Cert)} {t : Nat} {s : State} (h : Progress l t s) (o : Op) :
    Progress l t (step sortKeys s o) := by
  cases o with
  | reconfigure c => exact h
  | store k v => exact h
  | step ok t' =>
    show Progress l t (thread sortKeys s ok t')
    unfold thread
    rcases h with ⟨all, rest, hpc, h⟩ | ⟨⟨all, hpc⟩ | hpc, h⟩ | hpc
    · rw [hpc]
      dsimp only
      split
      · exact .inr (.inl ⟨.inl ⟨all, rfl⟩, fun e he => by simpa using h e he⟩)
      · rename_i e r
        split
        · rename_i hx
          refine .inl ⟨all, r, rfl, fun e' he' => ?_⟩
          rcases h e' he' with h1 | h1 | h1
          · rcases List.mem_cons.1 h1 with rfl | h1
            · exact .inr (.inl hx)
            · exact .inl h1
          · exact .inr (.inl h1)
          · exact .inr (.inr h1)
        · cases ok with
          | false => exact .inr (.inr rfl)
          | true =>
            refine .inl ⟨all, r, rfl, fun e' he' => ?_⟩
            rcases h e' he' with h1 | h1 | h1
            · rcases List.mem_cons.1 h1 with rfl | h1
              · exact .inr (.inr List.mem_cons_self)
              · exact .inl h1
            · exact .inr (.inl h1)
            · exact .inr (.inr (List.mem_cons_of_mem _ h1))
    · rw [hpc]
      dsimp only
      split
      · refine .inr (.inl ⟨.inr rfl, fun e he => ?_⟩)
        rcases h e he with h1 | h1
        · exact .inl h1
        · exact .inr (List.mem_cons_of_mem _ h1)
      · exact .inr (.inr rfl)
    · rw [hpc]; exact .inr (.inl ⟨.inr hpc, h⟩)
    · rw [hpc]; exact .inr (.inr hpc)

theorem progress_run {l : List (Str × Cert)} {t : Nat} : ∀ (ops : List Op) {s : State}, Progress l t s →
    Progress l t (run sortKeys ops s)
  | [], _, h => h
  | o :: os, _, h => progress_run os (progress_step h o)

/-- C74 (completeness). If the clean-up is on and ends without an error, whatever happened meanwhile, the ACME server
was asked, and agreed, to revoke every certificate that was in the cache when it was read, that has not expired, and
that has names none of which were configured when they were read. -/
theorem revoke_complete (hs : ∀ l e, e ∈ l → e ∈ sortKeys l) (s : State) (ns : List Str) (hpc : s.pc = .names true ns)
    (t : Nat) (ops : List Op) (hd : (run sortKeys (.step true t :: ops) s).pc = .done false)
    (k : Str) (c : Cert) (hk : (k, some c) ∈ s.cache) (ha : k ≠ "acme_account+key".toList)
    (hn : c.dnsNames ≠ []) (hno : ∀ n ∈ c.dnsNames, n ∉ ns) (ht : t ≤ c.notAfter) :
    Event.asked k c true t ∈ (run sortKeys (.step true t :: ops) s).log := by
  have hm : (k, c) ∈ sortKeys (unused ns (allCerts s.cache)) := by
    refine hs _ _ (List.mem_filter.2 ⟨List.mem_filterMap.2 ⟨(k, some c), hk, ?_⟩, ?_⟩)
    · dsimp only
      rw [if_neg (show ¬ k = accountKey from ha)]
    · simp only [Bool.and_eq_true, Bool.not_eq_true', List.any_eq_false, decide_eq_true_eq, gt_iff_lt]
      exact ⟨hno, List.length_pos_iff.2 hn⟩
  have h0 : Progress (sortKeys (unused ns (allCerts s.cache))) t (step sortKeys s (.step true t)) := by
    refine .inl ⟨(sortKeys (unused ns (allCerts s.cache))).map Prod.fst, sortKeys (unused ns (allCerts s.cache)), ?_, fun e he => .inl he⟩
    show (thread sortKeys s true t).pc = _
    unfold thread
    rw [hpc]
    rfl
  have h1 : Progress _ t (run sortKeys (.step true t :: ops) s) := progress_run ops h0
  rcases h1 with ⟨all, rest, h, -⟩ | ⟨-, h⟩ | h
  · rw [hd] at h; cases h
  · rcases h _ hm with h | h
    · dsimp only at h; omega
    · exact h
  · rw [hd] at h; cases h

/-- Whether the thread is about to use the cache or the ACME server. -/
def Spec.Calls (now : Pc) : Prop :=
  (∃ on ns, now = .names on ns) ∨ (∃ all e rest t, now = .loop all (e :: rest) t ∧ t ≤ e.2.notAfter) ∨ ∃ all, now = .delete all

/-- C74 (failures). When the cache cannot be read, the ACME server refuses, or the keys cannot be deleted, the clean-up
ends with an error: nothing is removed from the cache, nothing is noted as deleted, and whatever happens afterwards
it asks for nothing more. -/
theorem revoke_failure (s : State) (t : Nat) (h : Spec.Calls s.pc) (ops : List Op) :
    (run sortKeys (.step false t :: ops) s).pc = .done true ∧
    (step sortKeys s (.step false t)).cache = s.cache ∧
    (∀ all, .deleted all ∈ (run sortKeys (.step false t :: ops) s).log → .deleted all ∈ s.log) ∧
    (run sortKeys (.step false t :: ops) s).log = (step sortKeys s (.step false t)).log := by
  have h1 : (step sortKeys s (.step false t)).pc = .done true ∧
      (step sortKeys s (.step false t)).cache = s.cache ∧
      (∀ all, .deleted all ∈ (step sortKeys s (.step false t)).log → .deleted all ∈ s.log) := by
    show (thread sortKeys s false t).pc = _ ∧ (thread sortKeys s false t).cache = _ ∧ ∀ all, _ ∈ (thread sortKeys s false t).log → _
    unfold thread
    rcases h with ⟨on, ns, h⟩ | ⟨all, e, rest, t', h, ht⟩ | ⟨all, h⟩
    · rw [h]; exact ⟨rfl, rfl, fun _ h => h⟩
    · rw [h]
      dsimp only
      rw [if_neg (by omega)]
      exact ⟨rfl, rfl, fun all h => by simpa using h⟩
    · rw [h]; exact ⟨rfl, rfl, fun _ h => h⟩
  have h2 : ∀ (ops : List Op) (s : State), s.pc = .done true →
      (run sortKeys ops s).pc = .done true ∧ (run sortKeys ops s).log = s.log := by
    intro ops
    induction ops with
    | nil => intro s hs; exact ⟨hs, rfl⟩
    | cons o os ih =>
      intro s hs
      have : (step sortKeys s o).pc = .done true ∧ (step sortKeys s o).log = s.log := by
        cases o with
        | reconfigure c => exact ⟨hs, rfl⟩
        | store k v => exact ⟨hs, rfl⟩
        | step ok t =>
          show (thread sortKeys s ok t).pc = _ ∧ (thread sortKeys s ok t).log = _
          unfold thread
          rw [hs]
          exact ⟨hs, rfl⟩
      obtain ⟨h3, h4⟩ := ih _ this.1
      exact ⟨h3, h4.trans this.2⟩
  obtain ⟨h3, h4⟩ := h2 ops _ h1.1
  refine ⟨h3, h1.2.1, fun all ha => h1.2.2 all ?_, h4⟩
  have h5 : Event.deleted all ∈ (run sortKeys ops (step sortKeys s (.step false t))).log := ha
  rw [h4] at h5
  exact h5

namespace Ex

def a : Str := "a.example".toList
def b : Str := "b.example".toList
def c : Str := "c.example".toList
def cfg : Cfg := ⟨none, [[a]]⟩
def cache : Cache :=
  [(accountKey, none), (a, some ⟨[a], 100⟩), (b, some ⟨[b], 100⟩), (c, some ⟨[c], 5⟩),
   ("d".toList, some ⟨[c, a], 100⟩)]

def steps (n : Nat) : List Op := List.replicate n (.step true 50)

/-- Only `b` is asked for; `b` and the expired `c` are deleted. -/
example : (run id (steps 7) (init cfg cache)).log =
      [.deleted [b, c], .asked b ⟨[b], 100⟩ true 50] ∧
    (run id (steps 7) (init cfg cache)).cache.map Prod.fst = [accountKey, a, "d".toList] ∧
    (run id (steps 7) (init cfg cache)).pc = .done false := by
  decide +kernel

/-- Non-vacuity of `revoke_failure`: about to read the cache, to ask for `b`, and to delete `b` and `c`. -/
example : Spec.Calls (run id (steps 2) (init cfg cache)).pc ∧ Spec.Calls (run id (steps 3) (init cfg cache)).pc ∧
    Spec.Calls (run id (steps 6) (init cfg cache)).pc :=
  ⟨.inl ⟨true, [a], by decide +kernel⟩,
   .inr (.inl ⟨[b, c], (b, ⟨[b], 100⟩), [(c, ⟨[c], 5⟩)], 50, by decide +kernel, by decide⟩),
   .inr (.inr ⟨[b, c], by decide +kernel⟩)⟩

/-- Non-vacuity of `revoke_complete`: `b` expires at the very time of the clean-up. -/
example : (run id (steps 2) (init cfg [(b, some ⟨[b], 50⟩)])).pc = .names true [a] ∧
    (run id (.step true 50 :: steps 4) (run id (steps 2) (init cfg [(b, some ⟨[b], 50⟩)]))).pc = .done false := by
  decide +kernel

end Ex

open Ex in
/-- C74 fails: a backend is added while the clean-up runs, its certificate is obtained, and the
clean-up revokes it. -/
theorem revoke_reconfigured_violated : ∃ sortKeys cfg cache ops k x t, 
    (∀ l e, e ∈ sortKeys l → e ∈ l) ∧
    (run sortKeys ops (init cfg cache)).log = [Event.asked k x true t] ∧
    ∃ n ∈ x.dnsNames, Spec.Configured (run sortKeys ops (init cfg cache)).cfg n :=
  ⟨id, cfg, [], steps 2 ++ [.reconfigure ⟨none, [[a], [b]]⟩, .store b (some ⟨[b], 100⟩)] ++ steps 2,
    b, ⟨[b], 100⟩, 50, fun _ _ h => h, by decide +kernel, b, by decide +kernel, [b], by decide +kernel,
    by decide +kernel⟩

open Ex in
/-- C74 fails: the server refuses the second revocation; the certificate revoked before stays in the
cache. -/
theorem revoke_kept_violated : ∃ sortKeys cfg cache ops k x t e,
    (∀ l e, e ∈ sortKeys l → e ∈ l) ∧
    (run sortKeys ops (init cfg cache)).pc = .done e ∧
    Event.asked k x true t ∈ (run sortKeys ops (init cfg cache)).log ∧
    (k, some x) ∈ (run sortKeys ops (init cfg cache)).cache :=
  ⟨id, ⟨none, []⟩, cache, steps 4 ++ [.step false 50], a, ⟨[a], 100⟩, 50, true,
    fun _ _ h => h, by decide +kernel⟩

end Verif.Revoke
