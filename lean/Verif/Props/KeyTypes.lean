import Verif.Model.KeyTypes
/-!
# C164: certificate authorities work with every key type that is documented, and keep their keys
-/
namespace Verif.KeyTypes

open Verif.ClientKeys (Str KeyKind generateKey)

namespace Spec

/-- config.go:566-568 -/
def pkiDoc : List (String × KeyKind) :=
  [("ecdsa-p224", .ecdsa 224), ("ecdsa-p256", .ecdsa 256), ("ecdsa-p384", .ecdsa 384), ("ecdsa-p521", .ecdsa 521),
   ("ed25519", .ed25519), ("rsa-2048", .rsa 2048), ("rsa-3072", .rsa 3072), ("rsa-4096", .rsa 4096)]

/-- config.go:593-595 -/
def sshDoc : List (String × KeyKind) :=
  [("ecdsa-p256", .ecdsa 256), ("ecdsa-p384", .ecdsa 384), ("ecdsa-p521", .ecdsa 521),
   ("ed25519", .ed25519), ("rsa-2048", .rsa 2048), ("rsa-3072", .rsa 3072), ("rsa-4096", .rsa 4096)]

/-- The device, if there is one, can make this key. -/
def Makes (env : Env) (k : KeyKind) : Prop := ∀ m, env.tpm = some m → m k = true

/-- Names in small letters stay as they are. -/
def Lower (env : Env) : Prop := ∀ t ∈ pkiDoc, env.lower t.1.toList = t.1.toList

end Spec

theorem doc_sub : ∀ t ∈ Spec.sshDoc, t ∈ Spec.pkiDoc := by decide

theorem doc_nonempty : ∀ t ∈ Spec.pkiDoc, orDefault t.1.toList = t.1.toList := by decide

theorem soft_table : ∀ t ∈ Spec.pkiDoc, generateKey id t.1.toList = some t.2 := by decide

theorem pki_table : ∀ t ∈ Spec.pkiDoc, t.2 ≠ .ed25519 → pkiTPM id t.1.toList = some t.2 := by decide

theorem ssh_table : ∀ t ∈ Spec.sshDoc, t.2 ≠ .ed25519 → sshTPM id t.1.toList = some t.2 := by decide

theorem ssh_signs : ∀ t ∈ Spec.sshDoc, sshSigns t.2 = true := by decide

/-- What is generated for a name that is found in the tables. -/
theorem generate_ok (t : (Str → Str) → Str → Option KeyKind) (ht : ∀ l s, t l s = t id (l s)) (env : Env) (s s' : Str)
    (k : KeyKind) (fresh : Nat) (hl : env.lower s = s') (hs : generateKey id s' = some k)
    (hh : env.tpm ≠ none → t id s' = some k) (hm : Spec.Makes env k) :
    generate t env s fresh = some ⟨fresh, k, env.tpm.isSome⟩ := by
  unfold generate
  cases he : env.tpm with
  | none =>
    have : generateKey env.lower s = generateKey id s' := by rw [← hl]; rfl
    simp [this, hs]
  | some m =>
    have h1 := hh (by simp [he])
    rw [ht, hl, h1]
    simp [hm m he]

theorem parse_own (env : Env) (i : Nat) (k : KeyKind) : parse env ⟨i, k, env.tpm.isSome⟩ = some ⟨i, k, env.tpm.isSome⟩ := by
  simp [parse]

/-- C164 (partial). An SSH certificate authority is created with a key of any documented type, and works, except with
Ed25519 in a TPM. -/
theorem ssh_partial (env : Env) (hl : Spec.Lower env) (t : String × KeyKind) (ht : t ∈ Spec.sshDoc)
    (he : env.tpm ≠ none → t.2 ≠ .ed25519) (hm : Spec.Makes env t.2) (fresh : Nat) :
    initSSH env t.1.toList fresh none =
      (some ⟨fresh, t.2, env.tpm.isSome⟩, some ⟨fresh, t.2, env.tpm.isSome⟩) := by
  have h1 := generate_ok sshTPM (fun _ _ => rfl) env t.1.toList t.1.toList t.2 fresh (hl t (doc_sub t ht))
    (soft_table t (doc_sub t ht)) (fun h => ssh_table t ht (he h)) hm
  unfold initSSH
  dsimp only
  rw [doc_nonempty t (doc_sub t ht), h1]
  dsimp only
  rw [parse_own]
  dsimp only
  rw [if_pos (ssh_signs t ht)]

/-- C164 (partial). The same for certificate authorities for client certificates. -/
theorem pki_partial (env : Env) (hl : Spec.Lower env) (t : String × KeyKind) (ht : t ∈ Spec.pkiDoc)
    (he : env.tpm ≠ none → t.2 ≠ .ed25519) (hm : Spec.Makes env t.2) (fresh : Nat) :
    initPki env t.1.toList fresh none = (true, some ⟨⟨fresh, t.2, env.tpm.isSome⟩, none, 1⟩) := by
  have h1 := generate_ok pkiTPM (fun _ _ => rfl) env t.1.toList t.1.toList t.2 fresh (hl t ht)
    (soft_table t ht) (fun h => pki_table t ht (he h)) hm
  unfold initPki
  dsimp only
  rw [doc_nonempty t ht, h1]
  dsimp only
  rw [parse_own]
  rfl

/-- C164, violated: Ed25519 is documented, but no certificate authority can be created with it when keys are in a TPM. -/
theorem tpm_violated (env : Env) (hl : Spec.Lower env) (h : env.tpm ≠ none) (fresh : Nat) :
    ("ed25519", KeyKind.ed25519) ∈ Spec.sshDoc ∧ ("ed25519", KeyKind.ed25519) ∈ Spec.pkiDoc ∧
    (initSSH env "ed25519".toList fresh none) = (none, none) ∧ (initPki env "ed25519".toList fresh none) = (false, none) := by
  refine ⟨by decide, by decide, ?_, ?_⟩
  · have hg : generate sshTPM env (orDefault "ed25519".toList) fresh = none := by
      unfold generate
      cases he : env.tpm with
      | none => exact absurd he h
      | some m =>
        have : sshTPM env.lower (orDefault "ed25519".toList) = none := by
          show sshTPM id (env.lower "ed25519".toList) = none
          rw [hl ("ed25519", .ed25519) (by decide)]
          decide
        dsimp only
        rw [this]
    unfold initSSH
    dsimp only
    rw [hg]
  · have hg : generate pkiTPM env (orDefault "ed25519".toList) fresh = none := by
      unfold generate
      cases he : env.tpm with
      | none => exact absurd he h
      | some m =>
        have : pkiTPM env.lower (orDefault "ed25519".toList) = none := by
          show pkiTPM id (env.lower "ed25519".toList) = none
          rw [hl ("ed25519", .ed25519) (by decide)]
          decide
        dsimp only
        rw [this]
    unfold initPki
    dsimp only
    rw [hg]

/-- C164. Without a key type, authorities are created as with "ecdsa-p256". -/
theorem default_type (env : Env) (fresh : Nat) (db : Option Stored) (p : Option Pki) :
    initSSH env [] fresh db = initSSH env "ecdsa-p256".toList fresh db ∧
    initPki env [] fresh p = initPki env "ecdsa-p256".toList fresh p := by
  have e : orDefault [] = orDefault "ecdsa-p256".toList := by decide
  unfold initSSH initPki
  rw [e]
  exact ⟨rfl, rfl⟩

/-- C164. If the TPM makes no such keys, there is no authority, and nothing is stored. -/
theorem tpm_refuses (env : Env) (makes : KeyKind → Bool) (ht : env.tpm = some makes) (hm : ∀ k, makes k = false) (keyType : Str)
    (fresh : Nat) : initSSH env keyType fresh none = (none, none) ∧ initPki env keyType fresh none = (false, none) := by
  have hg : ∀ t kt, generate t env kt fresh = none := by
    intro t kt
    unfold generate
    rw [ht]
    dsimp only
    cases t env.lower kt with
    | none => rfl
    | some k =>
      dsimp only
      rw [hm k]
      rfl
  unfold initSSH initPki
  dsimp only
  rw [hg, hg]
  exact ⟨rfl, rfl⟩

/-! ## Keys are kept -/

/-- C164. A stored key is never replaced, and an authority that works uses it, whatever the configuration says later. -/
theorem ssh_kept (env : Env) (keyType : Str) (fresh : Nat) (k : Stored) :
    (initSSH env keyType fresh (some k)).2 = some k ∧
    ((initSSH env keyType fresh (some k)).1 = some k ∨ (initSSH env keyType fresh (some k)).1 = none) := by
  unfold initSSH
  dsimp only
  unfold parse
  split <;> rename_i h
  · split at h <;> rename_i hp
    · cases h
      split
      · exact ⟨rfl, .inl rfl⟩
      · exact ⟨rfl, .inr rfl⟩
    · cases h
  · exact ⟨rfl, .inr rfl⟩

/-- C164. An authority that has worked once works after any number of restarts with the same setting of `hwBacked`, with the
same key, whatever key types are configured. -/
theorem ssh_restarts (t0 : Bool) (starts : List (Env × Str × Nat)) (hs : ∀ e ∈ starts, e.1.tpm.isSome = t0) (env : Env)
    (h0 : env.tpm.isSome = t0) (keyType : Str) (fresh : Nat) (k : Stored) (db : Option Stored)
    (h : initSSH env keyType fresh none = (some k, db)) :
    ∀ e ∈ starts, initSSH e.1 e.2.1 e.2.2 db = (some k, db) := by
  have hk : db = some k ∧ k.inTPM = t0 ∧ sshSigns k.kind = true := by
    unfold initSSH at h
    dsimp only at h
    split at h
    · split at h <;> rename_i hp
      · split at h <;> rename_i hsg
        · cases h
          unfold parse at hp
          split at hp <;> rename_i hq
          · cases hp
            exact ⟨rfl, hq.trans h0, hsg⟩
          · cases hp
        · cases h
      · cases h
    · cases h
  obtain ⟨rfl, h1, h2⟩ := hk
  intro e he
  unfold initSSH
  dsimp only
  have : parse e.1 k = some k := by
    unfold parse
    rw [if_pos (h1.trans (hs e he).symm)]
  rw [this]
  dsimp only
  rw [if_pos h2]

/-- C164. A start that fails stores nothing. -/
theorem ssh_failed (env : Env) (keyType : Str) (fresh : Nat) (db : Option Stored)
    (h : (initSSH env keyType fresh db).1 = none) : (initSSH env keyType fresh db).2 = db := by
  cases db with
  | some k => exact (ssh_kept env keyType fresh k).1
  | none =>
    unfold initSSH at h ⊢
    dsimp only at h ⊢
    split at h
    · split at h
      · split at h <;> rename_i hs
        · cases h
        · rw [if_neg hs]
      · rfl
    · rfl

/-- OCSP requests do not change the key. -/
theorem requests_key (env : Env) (keyType : Str) (rs : List (Nat × Bool)) : ∀ p : Pki, (requests env keyType rs p).2.key = p.key := by
  induction rs with
  | nil => intro p; rfl
  | cons r rs ih =>
    intro p
    unfold requests
    dsimp only
    rw [ih]
    unfold ocsp rotate
    split <;> rename_i q h
    · rfl
    · have : q.key = p.key := by
        split at h
        · split at h
          · split at h
            · cases h; rfl
            · cases h
          · cases h
        · cases h; rfl
      split <;> exact this

/-- C164. The same for client certificates: after any number of OCSP requests and restarts, the key is the first one. -/
theorem pki_restarts (env : Env) (keyType : Str) (fresh : Nat) (p : Pki)
    (h : initPki env keyType fresh none = (true, some p)) (keyType' : Str) (rs : List (Nat × Bool)) (env' : Env)
    (he : env'.tpm.isSome = env.tpm.isSome) (keyType'' : Str) (fresh' : Nat) :
    ∃ q, initPki env' keyType'' fresh' (some (requests env keyType' rs p).2) = (true, some q) ∧ q.key = p.key := by
  refine ⟨_, ?_, requests_key env keyType' rs p⟩
  have hp : p.key.inTPM = env.tpm.isSome := by
    unfold initPki at h
    dsimp only at h
    split at h
    · split at h <;> rename_i hq
      · cases h
        unfold parse at hq
        split at hq <;> rename_i h
        · exact h
        · cases hq
      · cases h
    · cases h
  unfold initPki
  dsimp only
  unfold parse
  rw [requests_key, if_pos (hp.trans he.symm)]
  rfl

/-- C164. A start that fails stores nothing. -/
theorem pki_failed (env : Env) (keyType : Str) (fresh : Nat) (db : Option Pki)
    (h : (initPki env keyType fresh db).1 = false) : (initPki env keyType fresh db).2 = db := by
  cases db with
  | some p => rfl
  | none =>
    unfold initPki at h ⊢
    dsimp only at h ⊢
    split at h
    · split at h <;> rename_i hs
      · cases h
      · rw [if_neg hs]
    · rfl

/-! ## OCSP answers -/

/-- A certificate for signing that can be used. -/
def Good (env : Env) (p : Pki) : Prop :=
  p.key.inTPM = env.tpm.isSome ∧ ∀ d, p.delegate = some d → d.inTPM = env.tpm.isSome ∧ d.kind ≠ .ed25519

theorem ocsp_not_ed {k : KeyKind} (h : k ≠ .ed25519) : ocspSigns k = true := by
  cases k <;> simp_all [ocspSigns]

theorem ocsp_good (env : Env) (keyType : Str) (k : KeyKind) (hk : k ≠ .ed25519)
    (hg : ∀ fresh, generate pkiTPM env (delegateType keyType) fresh = some ⟨fresh, k, env.tpm.isSome⟩)
    (fresh : Nat) (old : Bool) (p : Pki) (h : Good env p) :
    (ocsp env keyType fresh old p).1 = true ∧ Good env (ocsp env keyType fresh old p).2 ∧
    (ocsp env keyType fresh old p).2.delegate ≠ none ∧ (ocsp env keyType fresh old p).2.key = p.key ∧
    (ocsp env keyType fresh old p).2.issued = p.issued + if old || p.delegate.isNone then 1 else 0 := by
  have hp : parse env p.key = some p.key := by unfold parse; rw [if_pos h.1]
  have hr : rotate env keyType fresh old p = some (if old || p.delegate.isNone then
      { p with delegate := some ⟨fresh, k, env.tpm.isSome⟩, issued := p.issued + 1 } else p) := by
    unfold rotate needsDelegate
    rw [hg, hp]
    cases hd : p.delegate with
    | none => simp
    | some d =>
      have := (h.2 d hd).2
      cases old <;> simp [this]
  unfold ocsp
  rw [hr]
  dsimp only
  by_cases hn : (old || p.delegate.isNone) = true
  · rw [if_pos hn, if_pos hn]
    simp only [Option.bind_some, parse_own]
    refine ⟨ocsp_not_ed hk, ⟨h.1, ?_⟩, by simp, trivial, trivial⟩
    intro d hd
    cases hd
    exact ⟨rfl, hk⟩
  · rw [if_neg hn, if_neg hn]
    cases hd : p.delegate with
    | none => simp [hd] at hn
    | some d =>
      obtain ⟨h1, h2⟩ := h.2 d hd
      have : parse env d = some d := by unfold parse; rw [if_pos h1]
      simp only [Option.bind_some, this]
      exact ⟨ocsp_not_ed h2, h, by simp [hd], trivial, rfl⟩

theorem requests_good (env : Env) (keyType : Str) (k : KeyKind) (hk : k ≠ .ed25519)
    (hg : ∀ fresh, generate pkiTPM env (delegateType keyType) fresh = some ⟨fresh, k, env.tpm.isSome⟩)
    (rs : List (Nat × Bool)) : ∀ p : Pki, Good env p →
    (∀ a ∈ (requests env keyType rs p).1, a = true) ∧ (requests env keyType rs p).1.length = rs.length ∧
    (requests env keyType rs p).2.key = p.key ∧
    (requests env keyType rs p).2.issued ≤ p.issued + (if p.delegate.isNone then 1 else 0) + rs.countP (·.2) := by
  induction rs with
  | nil => intro p _; simp [requests]
  | cons r rs ih =>
    intro p h
    obtain ⟨f, old⟩ := r
    obtain ⟨h1, h2, h3, h4, h5⟩ := ocsp_good env keyType k hk hg f old p h
    obtain ⟨i1, i2, i3, i4⟩ := ih _ h2
    unfold requests
    dsimp only
    refine ⟨?_, by simp [i2], i3.trans h4, ?_⟩
    · intro a ha
      rcases List.mem_cons.1 ha with rfl | ha
      · exact h1
      · exact i1 a ha
    · have hnn : (ocsp env keyType f old p).2.delegate.isNone = false := by
        cases hd : (ocsp env keyType f old p).2.delegate with
        | none => exact absurd hd h3
        | some d => rfl
      rw [hnn] at i4
      rw [h5] at i4
      cases old <;> cases hd : p.delegate <;> simp_all <;> omega

theorem delegate_table : ∀ t ∈ Spec.pkiDoc, ∃ u ∈ Spec.pkiDoc, u.2 ≠ .ed25519 ∧ delegateType t.1.toList = u.1.toList ∧
    (t.2 ≠ .ed25519 → u = t) ∧ (t.2 = .ed25519 → u.2 = .ecdsa 256) := by
  decide

/-- C164. With any documented key type, all OCSP requests are answered, and besides the first one only requests at a time when
the certificate for signing is old add a certificate to what is stored. -/
theorem ocsp_answers (env : Env) (hl : Spec.Lower env) (t : String × KeyKind) (ht : t ∈ Spec.pkiDoc)
    (hm : ∀ u ∈ Spec.pkiDoc, Spec.Makes env u.2) (fresh : Nat) (p : Pki)
    (hi : initPki env t.1.toList fresh none = (true, some p)) (rs : List (Nat × Bool)) :
    (∀ a ∈ (requests env t.1.toList rs p).1, a = true) ∧ (requests env t.1.toList rs p).1.length = rs.length ∧
    (requests env t.1.toList rs p).2.key = p.key ∧
    (requests env t.1.toList rs p).2.issued ≤ 2 + rs.countP (·.2) := by
  obtain ⟨u, hu, hne, hd, -, -⟩ := delegate_table t ht
  have hg : ∀ f, generate pkiTPM env (delegateType t.1.toList) f = some ⟨f, u.2, env.tpm.isSome⟩ := by
    intro f
    rw [hd]
    exact generate_ok pkiTPM (fun _ _ => rfl) env _ _ u.2 f (hl u hu) (soft_table u hu) (fun _ => pki_table u hu hne) (hm u hu)
  have hp : p.key.inTPM = env.tpm.isSome ∧ p.delegate = none ∧ p.issued = 1 := by
    unfold initPki at hi
    dsimp only at hi
    split at hi
    · split at hi <;> rename_i hq
      · cases hi
        refine ⟨?_, rfl, rfl⟩
        unfold parse at hq
        split at hq <;> rename_i h
        · exact h
        · cases hq
      · cases hi
    · cases hi
  have h := requests_good env t.1.toList u.2 hne hg rs p ⟨hp.1, by simp [hp.2.1]⟩
  rw [hp.2.1, hp.2.2] at h
  exact h

/-- C164, violated: other spellings of "ed25519" are accepted, but then no OCSP request is ever answered, and each of them, no
matter who sends it, adds a certificate to what is stored. -/
theorem case_violated (env : Env) (h : env.tpm = none) (keyType : Str) (hn : keyType ≠ []) (hl : env.lower keyType = "ed25519".toList)
    (hne : keyType ≠ "ed25519".toList) (fresh : Nat) :
    ∃ p, initPki env keyType fresh none = (true, some p) ∧ ∀ rs : List (Nat × Bool),
      (∀ a ∈ (requests env keyType rs p).1, a = false) ∧ (requests env keyType rs p).2.issued = p.issued + rs.length := by
  have ho : orDefault keyType = keyType := by unfold orDefault; rw [if_neg hn]
  have hg : ∀ f, generate pkiTPM env keyType f = some ⟨f, .ed25519, false⟩ := by
    intro f
    unfold generate
    rw [h]
    have : generateKey env.lower keyType = some .ed25519 := by
      show generateKey id (env.lower keyType) = _
      rw [hl]
      decide
    simp [this]
  refine ⟨⟨⟨fresh, .ed25519, false⟩, none, 1⟩, ?_, ?_⟩
  · unfold initPki
    dsimp only
    rw [ho, hg]
    simp [parse, h]
  · have key : ∀ (rs : List (Nat × Bool)) (p : Pki), p.key.inTPM = false → (∀ d, p.delegate = some d → d.kind = .ed25519) →
        (∀ a ∈ (requests env keyType rs p).1, a = false) ∧ (requests env keyType rs p).2.issued = p.issued + rs.length := by
      intro rs
      induction rs with
      | nil => intro p _ _; simp [requests]
      | cons r rs ih =>
        intro p hp hd
        obtain ⟨f, old⟩ := r
        have hr : rotate env keyType f old p = some { p with delegate := some ⟨f, .ed25519, false⟩, issued := p.issued + 1 } := by
          unfold rotate delegateType
          rw [ho, if_neg hne, hg]
          have h1 : needsDelegate old p = true := by
            unfold needsDelegate
            cases hd' : p.delegate with
            | none => rfl
            | some d => simp [hd d hd']
          rw [if_pos h1]
          simp [parse, h, hp]
        have ha : ocsp env keyType f old p =
            (false, { p with delegate := some ⟨f, .ed25519, false⟩, issued := p.issued + 1 }) := by
          unfold ocsp
          rw [hr]
          simp [parse, h, ocspSigns]
        obtain ⟨i1, i2⟩ := ih { p with delegate := some ⟨f, .ed25519, false⟩, issued := p.issued + 1 } hp (by simp)
        unfold requests
        dsimp only
        rw [ha]
        refine ⟨?_, ?_⟩
        · intro a hm
          rcases List.mem_cons.1 hm with rfl | hm
          · rfl
          · exact i1 a hm
        · rw [i2, List.length_cons]
          show p.issued + 1 + rs.length = _
          omega
    intro rs
    exact key rs _ rfl (by simp)

/-! ## Examples -/

def exEnv : Env := ⟨List.map Char.toLower, none⟩
def exHw : Env := ⟨List.map Char.toLower, some fun _ => true⟩

example : Spec.Lower exEnv := by unfold Spec.Lower; decide
example : Spec.Lower exHw := by unfold Spec.Lower; decide
example : Spec.Makes exHw (.rsa 2048) := by intro m h; cases h; rfl
example : exHw.tpm ≠ none := by simp [exHw]
example : exEnv.lower "Ed25519".toList = "ed25519".toList ∧ "Ed25519".toList ≠ "ed25519".toList := by decide
example : (initSSH exEnv "rsa-3072".toList 5 none) = (some ⟨5, .rsa 3072, false⟩, some ⟨5, .rsa 3072, false⟩) := by decide
-- an authority for SSH cannot use P-224, and nothing is stored then
example : (initSSH exEnv "ecdsa-p224".toList 5 none) = (none, none) := by decide
example : initPki exEnv "ed25519".toList 5 none = (true, some ⟨⟨5, .ed25519, false⟩, none, 1⟩) := by decide
example : requests exEnv "ed25519".toList [(6, false), (7, false), (8, true)] ⟨⟨5, .ed25519, false⟩, none, 1⟩ =
    ([true, true, true], ⟨⟨5, .ed25519, false⟩, some ⟨8, .ecdsa 256, false⟩, 3⟩) := by decide

end Verif.KeyTypes
