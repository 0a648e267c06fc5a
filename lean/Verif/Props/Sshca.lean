import Verif.Model.Sshca

/-!
# C73: SSH certificates
-/

namespace Verif.Sshca

/-- What an SSH certificate for `email` issued at `now` (nanoseconds) has to be: independent of the
submitted body except for the key. -/
structure Spec.Good {K : Type} (email : Str) (now : Int) (c : Cert K) : Prop where
  user : c.certType = .user
  principals : c.principals = [email]
  keyId : c.keyId = email
  noCritical : c.criticalOptions = []
  /-- what an interactive login may do by default, see PROTOCOL.certkeys of OpenSSH -/
  exts : c.extensions = ["permit-X11-forwarding", "permit-agent-forwarding",
    "permit-port-forwarding", "permit-pty", "permit-user-rc"].map String.toList
  /-- the first second of validity is the one five minutes before -/
  after1 : (c.validAfter : Int) * 1000000000 ≤ now - 300000000000
  after2 : now - 300000000000 < ((c.validAfter : Int) + 1) * 1000000000
  before1 : (c.validBefore : Int) * 1000000000 ≤ now + 600000000000
  before2 : now + 600000000000 < ((c.validBefore : Int) + 1) * 1000000000

theorem emailOf_some {claims : Option (List (Str × Val))} (h : emailOf claims ≠ []) :
    ∃ m, claims = some m ∧ m.lookup "email".toList = some (.str (emailOf claims)) := by
  unfold emailOf at *
  cases claims with
  | none => exact absurd rfl h
  | some m =>
    refine ⟨m, rfl, ?_⟩
    dsimp only at h ⊢
    cases hl : m.lookup "email".toList with
    | none => rw [hl] at h; exact absurd rfl h
    | some v =>
      rw [hl] at h
      cases v with
      | other => exact absurd rfl h
      | str e =>
        dsimp only at h ⊢
        by_cases he : e ≠ []
        · rw [if_pos he]
        · rw [if_neg he] at h; exact absurd rfl h

theorem unix64_eq {t : Int} (h0 : 0 ≤ t) (h1 : t < 18446744073709551616000000000) :
    (unix64 t : Int) = t / 1000000000 := by
  unfold unix64
  omega

/-- C73: a certificate is issued only to a user with a nonempty email claim, for exactly this email,
as a user certificate valid from five minutes before to ten minutes after now (to the second), for
the submitted key; on any other request none is issued. -/
theorem ssh_cert {K : Type} (env : Env K) (req : Req) (c : Cert K)
    (ht0 : 300000000000 ≤ env.now) (ht1 : env.now < 9000000000000000000000000000)
    (h : serve env req = .cert c) :
    ∃ email m body, email ≠ [] ∧ req.claims = some m ∧
      m.lookup "email".toList = some (.str email) ∧ Spec.Good email env.now c ∧
      req.body = some body ∧ env.parse (body.take 102400) = some c.key ∧
      req.method = "POST".toList ∧ req.csrf = "1".toList := by
  unfold serve at h
  split at h
  · cases h
  dsimp only at h
  split at h
  · cases h
  rename_i he
  split at h
  · cases h
  rename_i hm
  split at h
  · cases h
  rename_i hx
  split at h
  · cases h
  cases hb : req.body with
  | none => rw [hb] at h; cases h
  | some body =>
    rw [hb] at h
    dsimp only at h
    cases hp : env.parse (body.take 102400) with
    | none => rw [hp] at h; cases h
    | some pub =>
      rw [hp] at h
      dsimp only at h
      cases hr : env.rnd with
      | none => rw [hr] at h; cases h
      | some r =>
        rw [hr] at h
        dsimp only at h
        split at h
        · cases h
          obtain ⟨m, h1, h2⟩ := emailOf_some he
          refine ⟨_, m, body, he, h1, h2, ?_, rfl, hp, Decidable.not_not.1 hm, Decidable.not_not.1 hx⟩
          have a := unix64_eq (t := env.now - 300000000000) (by omega) (by omega)
          have b := unix64_eq (t := env.now + 600000000000) (by omega) (by omega)
          refine ⟨rfl, rfl, rfl, rfl, rfl, ?_, ?_, ?_, ?_⟩
          · show ((unix64 (env.now - 300000000000) : Nat) : Int) * _ ≤ _
            omega
          · show _ < (((unix64 (env.now - 300000000000) : Nat) : Int) + 1) * _
            omega
          · show ((unix64 (env.now + 600000000000) : Nat) : Int) * _ ≤ _
            omega
          · show _ < (((unix64 (env.now + 600000000000) : Nat) : Int) + 1) * _
            omega
        · cases h

/-- The request proves this email address. -/
def Spec.Email (req : Req) (email : Str) : Prop :=
  email ≠ [] ∧ ∃ m, req.claims = some m ∧ m.lookup "email".toList = some (.str email)

theorem emailOf_iff (req : Req) (email : Str) (hne : email ≠ []) :
    emailOf req.claims = email ↔ Spec.Email req email := by
  constructor
  · rintro rfl
    exact ⟨hne, emailOf_some hne⟩
  · rintro ⟨_, m, h1, h2⟩
    rw [h1]
    unfold emailOf
    dsimp only
    rw [h2]
    dsimp only
    rw [if_pos hne]

/-- C73: which certificate is issued, and that it is issued: to every user with an email claim who
posts, with the CSRF header and as plain text, a key that can be parsed. -/
theorem ssh_cert_iff {K : Type} (env : Env K) (req : Req) (c : Cert K)
    (ht0 : 300000000000 ≤ env.now) (ht1 : env.now < 9000000000000000000000000000) :
    serve env req = .cert c ↔
      env.hasSigner = true ∧ req.method = "POST".toList ∧ req.csrf = "1".toList ∧
      req.contentType = "text/plain".toList ∧ env.rnd = some c.serial ∧ env.signs c = true ∧
      (∃ body, req.body = some body ∧ env.parse (body.take 102400) = some c.key) ∧
      ∃ email, Spec.Email req email ∧ Spec.Good email env.now c := by
  constructor
  · intro h
    obtain ⟨email, m, body, h1, h2, h3, h4, h5, h6, h7, h8⟩ := ssh_cert env req c ht0 ht1 h
    unfold serve at h
    split at h
    · cases h
    rename_i hs
    dsimp only at h
    split at h
    · cases h
    rw [if_neg (not_not_intro h7), if_neg (not_not_intro h8)] at h
    split at h
    · cases h
    rename_i hct
    rw [h5] at h
    dsimp only at h
    rw [h6] at h
    dsimp only at h
    split at h
    · cases h
    · rename_i r hr
      split at h
      · rename_i hsg
        have h := Resp.cert.inj h
        have hr' : env.rnd = some c.serial := by rw [hr, ← h]; rfl
        rw [h] at hsg
        exact ⟨by simpa using hs, h7, h8, Decidable.not_not.1 hct, hr', hsg, ⟨body, h5, h6⟩, email,
          ⟨h1, m, h2, h3⟩, h4⟩
      · cases h
  · rintro ⟨h1, h2, h3, h4, h5, h6, ⟨body, h7, h8⟩, email, h9, h10⟩
    have he := (emailOf_iff req email h9.1).2 h9
    have hc : mkCert c.key c.serial email env.now = c := by
      have a := unix64_eq (t := env.now - 300000000000) (by omega) (by omega)
      have b := unix64_eq (t := env.now + 600000000000) (by omega) (by omega)
      obtain ⟨g1, g2, g3, g4, g5, g6, g7, g8, g9⟩ := h10
      have e1 : unix64 (env.now - 300000000000) = c.validAfter := by omega
      have e2 : unix64 (env.now + 600000000000) = c.validBefore := by omega
      unfold mkCert
      rw [e1, e2]
      cases c
      dsimp only at *
      subst g1 g2 g3 g4 g5
      rfl
    unfold serve
    rw [if_neg (by simp [h1])]
    dsimp only
    rw [he, if_neg h9.1, if_neg (not_not_intro h2), if_neg (not_not_intro h3), if_neg (not_not_intro h4), h7]
    dsimp only
    rw [h8]
    dsimp only
    rw [h5]
    dsimp only
    rw [hc, if_pos h6]

/-- C73: what the others are told. -/
theorem ssh_status {K : Type} (env : Env K) (req : Req) :
    (env.hasSigner = false → serve env req = .error 500) ∧
    (env.hasSigner = true →
      ((¬ ∃ e, Spec.Email req e) → serve env req = .error 403) ∧
      ((∃ e, Spec.Email req e) →
        (req.method ≠ "POST".toList → serve env req = .error 405) ∧
        (req.method = "POST".toList →
          (req.csrf ≠ "1".toList ∨ req.contentType ≠ "text/plain".toList → serve env req = .error 400) ∧
          (req.csrf = "1".toList → req.contentType = "text/plain".toList →
            serve env req = .error 500 ∨ ∃ c, serve env req = .cert c)))) := by
  unfold serve
  refine ⟨fun h => by rw [if_pos (by simp [h])], fun h => ?_⟩
  rw [if_neg (by simp [h])]
  dsimp only
  refine ⟨fun hn => ?_, fun ⟨e, he⟩ => ?_⟩
  · rw [if_pos]
    exact Classical.byContradiction fun hne => hn ⟨_, (emailOf_iff req _ hne).1 rfl⟩
  · rw [if_neg (by rw [(emailOf_iff req e he.1).2 he]; exact he.1)]
    refine ⟨fun hm => if_pos hm, fun hm => ?_⟩
    rw [if_neg (not_not_intro hm)]
    constructor
    · rintro (hx | hx)
      · rw [if_pos hx]
      · by_cases hc : req.csrf = "1".toList
        · rw [if_neg (not_not_intro hc), if_pos hx]
        · rw [if_pos hc]
    · intro hc hx
      rw [if_neg (not_not_intro hc), if_neg (not_not_intro hx)]
      split
      · exact .inl rfl
      · split
        · exact .inl rfl
        · split
          · exact .inl rfl
          · split
            · exact .inr ⟨_, rfl⟩
            · exact .inl rfl

/-- C73: whatever the body is, everything in the certificate but the key is the same. -/
theorem ssh_cert_body {K : Type} (env : Env K) (req : Req) (b b' : Option (List Nat)) (c c' : Cert K)
    (h : serve env { req with body := b } = .cert c)
    (h' : serve env { req with body := b' } = .cert c') : { c with key := c'.key } = c' := by
  have aux : ∀ (b : Option (List Nat)) (c : Cert K), serve env { req with body := b } = .cert c →
      ∃ r, env.rnd = some r ∧ c = mkCert c.key r (emailOf req.claims) env.now := by
    intro b c h
    unfold serve at h
    split at h
    · cases h
    dsimp only at h
    split at h
    · cases h
    split at h
    · cases h
    split at h
    · cases h
    split at h
    · cases h
    cases b with
    | none => cases h
    | some body =>
      dsimp only at h
      cases hp : env.parse (body.take 102400) with
      | none => rw [hp] at h; cases h
      | some pub =>
        rw [hp] at h
        cases hr : env.rnd with
        | none => rw [hr] at h; cases h
        | some r =>
          rw [hr] at h
          dsimp only at h
          split at h
          · cases h
            exact ⟨r, rfl, rfl⟩
          · cases h
  obtain ⟨r, h1, h2⟩ := aux b c h
  obtain ⟨r', h3, h4⟩ := aux b' c' h'
  rw [h1] at h3
  cases h3
  rw [h2, h4]
  rfl

namespace Ex

def env : Env Nat where
  hasSigner := true
  parse := fun b => b.head?
  rnd := some 77
  signs := fun _ => true
  now := 1700000000123456789

def req : Req where
  claims := some [("sub".toList, .str "1".toList), ("email".toList, .str "a@b.c".toList)]
  method := "POST".toList
  csrf := "1".toList
  contentType := "text/plain".toList
  body := some [5, 6]

example : serve env req = .cert ⟨5, 77, .user, "a@b.c".toList, ["a@b.c".toList], 1699999700, 1700000600,
    [], extensions⟩ := by decide +kernel

example : serve env { req with claims := some [("email".toList, .other)] } = .error 403 := by
  decide +kernel

example : Spec.Email req "a@b.c".toList := ⟨by decide, _, rfl, by decide +kernel⟩

end Ex

end Verif.Sshca
