import Verif.Model.PkiPage
/-!
C124: what the certificate management page shows and offers agrees with what its handlers do.
-/
namespace Verif.PkiPage

open Verif.Pki (Str Cert Db Cfg findCert findText Rev)

/-! ## Specification -/

/-- The status of a certificate. -/
def Spec.Is (now : Nat) (c : Cert) : Status → Prop
  | .revoked => ∃ r, c.rev = some r
  | .expired => c.rev = none ∧ now > c.notAfter
  | .valid => c.rev = none ∧ now ≤ c.notAfter

/-- Which statuses the value of the filter asks for. -/
def Spec.wanted (filter : Str) (st : Status) : Prop :=
  (filter = [] → st = .valid) ∧ (filter = "valid".toList → st = .valid) ∧
  (filter = "revoked".toList → st = .revoked) ∧ (filter = "expired".toList → st = .expired)

/-- What a successful answer to a button is. -/
def Spec.fulfils (b : Button) (c : Cert) (a : Answer) : Prop :=
  match b with
  | .view | .download => a = .pem c
  | .revoke => a = .revoke c.serial

/-! ## What is listed -/

theorem statusOf_is (now : Nat) (c : Cert) (st : Status) : statusOf now c = st ↔ Spec.Is now c st := by
  unfold statusOf
  cases hr : c.rev with
  | some r => cases st <;> simp [Spec.Is, hr]
  | none =>
    by_cases h : c.notAfter < now
    · cases st <;> simp [Spec.Is, hr, h] <;> omega
    · cases st <;> simp [Spec.Is, hr, h] <;> omega

theorem valid_iff {now : Nat} {c : Cert} {st : Status} (h : Spec.Is now c st) :
    st = .valid ↔ c.rev = none ∧ now ≤ c.notAfter := by
  cases st with
  | valid => exact ⟨fun _ => h, fun _ => rfl⟩
  | revoked =>
    obtain ⟨r, hr⟩ := h
    simp [hr]
  | expired =>
    have h2 := h.2
    simp only [reduceCtorEq, false_iff, not_and]
    intro _; omega

theorem skipped_iff (filter : Str) (st : Status) : skipped filter st = false ↔ Spec.wanted filter st := by
  unfold skipped Spec.wanted
  have d1 : "valid".toList ≠ [] := by decide
  have d2 : "revoked".toList ≠ [] := by decide
  have d3 : "expired".toList ≠ [] := by decide
  have d4 : "valid".toList ≠ "revoked".toList := by decide
  have d5 : "valid".toList ≠ "expired".toList := by decide
  have d6 : "revoked".toList ≠ "expired".toList := by decide
  generalize "valid".toList = v at *
  generalize "revoked".toList = rv at *
  generalize "expired".toList = ex at *
  by_cases h1 : filter = []
  · subst h1; cases st <;> simp [Ne.symm d1, Ne.symm d2, Ne.symm d3]
  · by_cases h2 : filter = v
    · subst h2; cases st <;> simp [d1, d4, d5]
    · by_cases h3 : filter = rv
      · subst h3; cases st <;> simp [d2, Ne.symm d4, d6]
      · by_cases h4 : filter = ex
        · subst h4; cases st <;> simp [d3, Ne.symm d5, Ne.symm d6]
        · simp [h1, h2, h3, h4]

theorem rows_cons (email : Str) (adm : Bool) (owner filter : Str) (now : Nat) (c : Cert) (cs : List Cert) :
    rows email adm owner filter now (c :: cs) =
      (if owner ≠ "all".toList ∧ email ∉ c.emails then rows email adm owner filter now cs
       else if skipped filter (statusOf now c) then rows email adm owner filter now cs
       else { cert := c, status := statusOf now c,
              canRevoke := ! c.isCA && (adm || decide (email ∈ c.emails)) }
         :: rows email adm owner filter now cs) := rfl

theorem mem_rows {email : Str} {adm : Bool} {owner filter : Str} {now : Nat} {l : List Cert} {row : Row} :
    row ∈ rows email adm owner filter now l ↔
      row.cert ∈ l ∧ (owner = "all".toList ∨ email ∈ row.cert.emails) ∧
      Spec.Is now row.cert row.status ∧ Spec.wanted filter row.status ∧
      (row.canRevoke = true ↔ row.cert.isCA = false ∧ (adm = true ∨ email ∈ row.cert.emails)) := by
  induction l with
  | nil => simp [rows]
  | cons c cs ih =>
    have hsplit : ∀ X : Prop, (row.cert ∈ c :: cs ∧ X) ↔ (row.cert = c ∧ X) ∨ (row.cert ∈ cs ∧ X) := by
      intro X; simp only [List.mem_cons]; constructor
      · rintro ⟨h | h, hx⟩
        · exact Or.inl ⟨h, hx⟩
        · exact Or.inr ⟨h, hx⟩
      · rintro (⟨h, hx⟩ | ⟨h, hx⟩)
        · exact ⟨Or.inl h, hx⟩
        · exact ⟨Or.inr h, hx⟩
    rw [hsplit, ← ih, rows_cons]
    split
    · rename_i h1
      constructor
      · exact Or.inr
      · rintro (⟨rfl, h2, _⟩ | h)
        · exact absurd h2 (by rintro (h | h); exact h1.1 h; exact h1.2 h)
        · exact h
    · rename_i h1
      have h1' : owner = "all".toList ∨ email ∈ c.emails := by
        by_cases ho : owner = "all".toList
        · exact Or.inl ho
        · exact Or.inr (Classical.byContradiction fun hc => h1 ⟨ho, hc⟩)
      split
      · rename_i h2
        constructor
        · exact Or.inr
        · rintro (⟨rfl, _, h3, h4, _⟩ | h)
          · rw [← statusOf_is] at h3
            rw [← skipped_iff, ← h3, h2] at h4
            cases h4
          · exact h
      · rename_i h2
        rw [List.mem_cons]
        constructor
        · rintro (rfl | h)
          · refine Or.inl ⟨rfl, h1', (statusOf_is _ _ _).mp rfl, ?_, ?_⟩
            · rw [← skipped_iff]; simpa using h2
            · simp
          · exact Or.inr h
        · rintro (⟨hc, _, h3, _, h5⟩ | h)
          · refine Or.inl ?_
            cases row with
            | mk cert st cr =>
              simp only at hc h3 h5
              subst hc
              rw [← statusOf_is] at h3
              subst h3
              simp only [Row.mk.injEq, true_and]
              rw [Bool.eq_iff_iff, h5]
              simp
          · exact Or.inr h

/-- The page, with the parameters it was asked with. -/
theorem serve_page {cfg : Cfg} {lower : Str → Str} {db : Db} {r : Req} {rs : List Row}
    (h : serve cfg lower db r = .page rs) :
    ∃ email, r.email = some email ∧ r.get = [] ∧
      rs = (rows email (decide (r.admin ≠ []) && decide (email ∈ cfg.admins)) (lower r.owner)
        (lower r.status) r.now db.issued).reverse := by
  unfold serve at h
  cases he : r.email with
  | none => rw [he] at h; cases h
  | some email =>
    rw [he] at h
    simp only at h
    split at h
    · cases h
    · split at h
      · unfold handleRevoke at h
        split at h
        · cases h
        · split at h
          · cases h
          · split at h
            · cases h
            · split at h
              · cases h
              · split at h <;> cases h
      · split at h
        · unfold handleDownload at h
          split at h
          · cases h
          · split at h <;> cases h
        · split at h
          · cases h
          · split at h
            · cases h
            · rename_i hg
              cases h
              exact ⟨email, rfl, by simpa using hg, rfl⟩

/-- C124 (what is listed). For every set of issued certificates and every request, an entry is
on the page exactly if it is an issued certificate with its true status at that time, the
status is one the filter asks for, and the certificate carries the user's own address, unless
the request asks for everybody's. An entry is marked revocable exactly if it is not a CA
certificate and it is the user's own, or the user is an administrator who asked to act as one. -/
theorem listed_iff {cfg : Cfg} {lower : Str → Str} {db : Db} {r : Req} {rs : List Row}
    (h : serve cfg lower db r = .page rs) (row : Row) :
    ∃ email, r.email = some email ∧
      (row ∈ rs ↔ row.cert ∈ db.issued ∧ (lower r.owner = "all".toList ∨ email ∈ row.cert.emails) ∧
        Spec.Is r.now row.cert row.status ∧ Spec.wanted (lower r.status) row.status ∧
        (row.canRevoke = true ↔ row.cert.isCA = false ∧
          ((r.admin ≠ [] ∧ email ∈ cfg.admins) ∨ email ∈ row.cert.emails))) := by
  obtain ⟨email, he, _, rfl⟩ := serve_page h
  refine ⟨email, he, ?_⟩
  rw [List.mem_reverse, mem_rows]
  simp

/-- C124 (order and number). The entries are those of the issued certificates, newest first:
each issued certificate appears at most as often as it was issued, in the opposite order. -/
theorem listed_order {cfg : Cfg} {lower : Str → Str} {db : Db} {r : Req} {rs : List Row}
    (h : serve cfg lower db r = .page rs) :
    (rs.map (·.cert)).Sublist db.issued.reverse := by
  obtain ⟨email, he, _, rfl⟩ := serve_page h
  rw [List.map_reverse, List.reverse_sublist]
  generalize (decide (r.admin ≠ []) && decide (email ∈ cfg.admins)) = adm
  induction db.issued with
  | nil => simp [rows]
  | cons c cs ih =>
    rw [rows_cons]
    split
    · exact ih.cons c
    · split
      · exact ih.cons c
      · simp only [List.map_cons]
        exact ih.cons₂ c

/-! ## What the handlers accept -/

/-- C124 (who may revoke). A request goes on to revoke a certificate only if it is a POST with
the check header, the certificate is the first issued one with that serial number, is neither
revoked nor expired, and carries the user's address, or the user is an administrator who asked
to act as one. -/
theorem revoke_allowed {cfg : Cfg} {lower : Str → Str} {db : Db} {r : Req} {serial : Nat}
    (h : serve cfg lower db r = .revoke serial) :
    ∃ email c, r.email = some email ∧ r.post = true ∧ r.csrf = true ∧ c ∈ db.issued ∧
      c.text = r.sn ∧ c.serial = serial ∧ Spec.Is r.now c .valid ∧
      (email ∈ c.emails ∨ (r.admin ≠ [] ∧ email ∈ cfg.admins)) := by
  unfold serve at h
  cases he : r.email with
  | none => rw [he] at h; cases h
  | some email =>
    rw [he] at h
    simp only at h
    split at h
    · cases h
    · split at h
      · unfold handleRevoke at h
        split at h
        · cases h
        · rename_i hp
          split at h
          · cases h
          · rename_i hcs
            split at h
            · cases h
            · rename_i c hf
              split at h
              · cases h
              · rename_i hexp
                split at h
                · cases h
                · rename_i ha
                  cases h
                  unfold findCert at hf
                  split at hf
                  · cases hf
                  · rename_i c' hfind
                    split at hf
                    · cases hf
                    · rename_i hrev
                      cases hf
                      unfold findText at hfind
                      refine ⟨email, c, rfl, by simpa using hp, by simpa using hcs,
                        List.mem_of_find?_eq_some hfind, ?_, rfl, ⟨by simpa using hrev, by omega⟩, ?_⟩
                      · have := List.find?_some hfind; simpa using this
                      · simp only [Bool.and_eq_true, Bool.not_eq_true', Bool.and_eq_false_imp,
                          decide_eq_true_eq, decide_eq_false_iff_not] at ha
                        by_cases hm : email ∈ c.emails
                        · exact Or.inl hm
                        · refine Or.inr ?_
                          apply Classical.byContradiction
                          intro hn
                          exact ha ⟨fun h1 h2 => hn ⟨by simpa using h1, h2⟩, hm⟩
      · split at h
        · unfold handleDownload at h
          split at h
          · cases h
          · split at h <;> cases h
        · split at h
          · cases h
          · split at h <;> cases h

/-- The page's handler and the step of the certificate authority's model agree: a request is
passed on for a serial number exactly when that model records it as pending. -/
theorem revoke_agrees (cfg : Cfg) (lower : Str → Str) (s : Pki.State) (rid serial : Nat) (email : Str)
    (r : Req) (he : r.email = some email) (hg : r.get = "revokeCert".toList) (hp : r.post = true)
    (hc : r.csrf = true) :
    serve cfg lower s.db r = .revoke serial ↔
      (Pki.revokeCheck cfg s rid email (decide (r.admin ≠ [])) r.sn r.now).pending
        = (rid, serial) :: s.pending := by
  have e3 : ¬ "revokeCert".toList = "requestCert".toList := by decide
  have hl : ∀ x : Nat × Nat, s.pending ≠ x :: s.pending := by
    intro x h; have := congrArg List.length h; simp at this
  unfold serve
  rw [he]
  dsimp only
  rw [if_neg (by rw [hg]; exact e3), if_pos hg]
  unfold handleRevoke Pki.revokeCheck
  rw [if_neg (by simp [hp]), if_neg (by simp [hc])]
  dsimp only
  generalize (decide (r.admin ≠ []) && decide (email ∈ cfg.admins)) = adm
  cases findCert s.db r.sn with
  | none => exact ⟨(fun h => by cases h), fun h => absurd h (hl _)⟩
  | some c =>
    dsimp only
    split
    · exact ⟨(fun h => by cases h), fun h => absurd h (hl _)⟩
    · split
      · exact ⟨(fun h => by cases h), fun h => absurd h (hl _)⟩
      · simp

theorem findText_of_nodup {l : List Cert} (hn : (l.map (·.text)).Nodup) {c : Cert} (hc : c ∈ l) :
    findText c.text l = some c := by
  unfold findText
  induction l with
  | nil => cases hc
  | cons x xs ih =>
    rw [List.map_cons, List.nodup_cons] at hn
    by_cases hx : x = c
    · subst hx; simp
    · have hm : c ∈ xs := by
        rcases List.mem_cons.mp hc with h | h
        · exact absurd h.symm hx
        · exact h
      rw [List.find?_cons_of_neg]
      · exact ih hn.2 hm
      · simp only [decide_eq_true_eq]
        intro heq
        exact hn.1 (by rw [heq]; exact List.mem_map_of_mem hm)

/-- C124 (partial). If serial numbers are distinct: every button of the page does what it says
when pressed while the certificate is still valid and nothing was changed meanwhile, provided,
for the revocation button, that the certificate carries the user's own address; and the view
and download buttons work for all certificates that are not revoked. Missing: the revocation
button shown to administrators (`offered_revoke_violated`) and the buttons beside revoked
certificates (`offered_view_violated`). -/
theorem buttons_work_partial {cfg : Cfg} {lower : Str → Str} {db : Db} {r : Req} {rs : List Row}
    (h : serve cfg lower db r = .page rs) (hn : (db.issued.map (·.text)).Nodup)
    (row : Row) (hrow : row ∈ rs) (b : Button) (hb : b ∈ buttons row) (now : Nat)
    (hok : match b with
      | .revoke => now ≤ row.cert.notAfter ∧ ∀ email, r.email = some email → email ∈ row.cert.emails
      | _ => row.status ≠ .revoked) :
    Spec.fulfils b row.cert (serve cfg lower db (click r b row now)) := by
  obtain ⟨email, he, hiff⟩ := listed_iff h row
  obtain ⟨hmem, _, hst, _, hcan⟩ := hiff.mp hrow
  have hft := findText_of_nodup hn hmem
  have dl : row.status ≠ .revoked →
      handleDownload db { email := r.email, get := "downloadCert".toList, sn := row.cert.text, now := now }
        = .pem row.cert := by
    intro hs
    have hrev : row.cert.rev = none := by
      cases hx : row.status with
      | revoked => exact absurd hx hs
      | valid => rw [hx] at hst; exact hst.1
      | expired => rw [hx] at hst; exact hst.1
    simp [handleDownload, findCert, hft, hrev]
  have e1 : ¬ "downloadCert".toList = "requestCert".toList := by decide
  have e2 : ¬ "downloadCert".toList = "revokeCert".toList := by decide
  have e3 : ¬ "revokeCert".toList = "requestCert".toList := by decide
  cases b with
  | view =>
    simp only [Spec.fulfils, click, serve, he, if_neg e1, if_neg e2, if_true]
    rw [he] at dl; exact dl hok
  | download =>
    simp only [Spec.fulfils, click, serve, he, if_neg e1, if_neg e2, if_true]
    rw [he] at dl; exact dl hok
  | revoke =>
    have hs : row.status = .valid := by
      unfold buttons at hb
      by_cases hx : row.status = .valid
      · exact hx
      · simp [hx] at hb
    rw [hs] at hst
    have hown := hok.2 email he
    have hlt : ¬ row.cert.notAfter < now := by omega
    simp only [Spec.fulfils, click, serve, he, if_neg e3, if_true]
    simp [handleRevoke, findCert, hft, hst.1, hlt, hown]

/-- C124 (which buttons). On the page, the revocation button stands beside an entry exactly if
the certificate is neither revoked nor expired, is not that of a CA, and is the user's own or
the user is an administrator who asked to act as one. -/
theorem revoke_offered_iff {cfg : Cfg} {lower : Str → Str} {db : Db} {r : Req} {rs : List Row}
    (h : serve cfg lower db r = .page rs) (row : Row) (hrow : row ∈ rs) :
    Button.revoke ∈ buttons row ↔
      row.cert.rev = none ∧ r.now ≤ row.cert.notAfter ∧ row.cert.isCA = false ∧
      ∃ email, r.email = some email ∧
        ((r.admin ≠ [] ∧ email ∈ cfg.admins) ∨ email ∈ row.cert.emails) := by
  obtain ⟨email, he, hiff⟩ := listed_iff h row
  obtain ⟨_, _, hst, _, hcan⟩ := hiff.mp hrow
  have hb : Button.revoke ∈ buttons row ↔ row.status = .valid ∧ row.canRevoke = true := by
    unfold buttons
    by_cases h1 : row.status = .valid <;> by_cases h2 : row.canRevoke = true <;> simp [h1, h2]
  rw [hb]
  have hv := valid_iff hst
  rw [hv, hcan]
  constructor
  · rintro ⟨⟨a, b⟩, c, d⟩
    exact ⟨a, b, c, email, he, d⟩
  · rintro ⟨a, b, c, email', he', d⟩
    rw [he] at he'; cases he'
    exact ⟨⟨a, b⟩, c, d⟩

/-- C124. Without a login nothing is listed, sent or revoked. -/
theorem login_needed (cfg : Cfg) (lower : Str → Str) (db : Db) (r : Req) (h : r.email = none) :
    serve cfg lower db r = .internalError := by
  unfold serve
  rw [h]

theorem findCert_iff (db : Db) (text : Str) (c : Cert) :
    findCert db text = some c ↔
      (∃ l1 l2, db.issued = l1 ++ c :: l2 ∧ c.text = text ∧ ∀ x ∈ l1, x.text ≠ text) ∧ c.rev = none := by
  have hf : findText text db.issued = some c ↔
      ∃ l1 l2, db.issued = l1 ++ c :: l2 ∧ c.text = text ∧ ∀ x ∈ l1, x.text ≠ text := by
    unfold findText
    rw [List.find?_eq_some_iff_append]
    simp only [decide_eq_true_eq, Bool.not_eq_true', decide_eq_false_iff_not]
    constructor
    · rintro ⟨h1, l1, l2, h2, h3⟩; exact ⟨l1, l2, h2, h1, h3⟩
    · rintro ⟨l1, l2, h2, h1, h3⟩; exact ⟨h1, l1, l2, h2, h3⟩
  rw [← hf]
  unfold findCert
  cases hx : findText text db.issued with
  | none => simp
  | some x =>
    dsimp only
    cases hr : x.rev with
    | none =>
      rw [if_neg (by simp)]
      constructor
      · intro h; cases h; exact ⟨rfl, hr⟩
      · rintro ⟨h, -⟩; cases h; rfl
    | some r =>
      rw [if_pos (by rfl)]
      constructor
      · intro h; cases h
      · rintro ⟨h, h'⟩; cases h; rw [hr] at h'; cases h'

theorem serve_download (cfg : Cfg) (lower : Str → Str) (db : Db) (r : Req) (email : Str)
    (he : r.email = some email) (hg : r.get = "downloadCert".toList) :
    serve cfg lower db r = handleDownload db r := by
  have e1 : ¬ "downloadCert".toList = "requestCert".toList := by decide
  have e2 : ¬ "downloadCert".toList = "revokeCert".toList := by decide
  unfold serve
  rw [he, hg]
  dsimp only
  rw [if_neg e1, if_neg e2, if_pos rfl]

/-- C124 (what is sent). A certificate is sent exactly to a logged-in user who asks for it with the download link
and not with a POST: the first issued one with this serial number, unless it is revoked. Whose it is does not
matter. -/
theorem download_iff (cfg : Cfg) (lower : Str → Str) (db : Db) (r : Req) (c : Cert) :
    serve cfg lower db r = .pem c ↔
      r.email.isSome ∧ r.get = "downloadCert".toList ∧ r.post = false ∧
      (∃ l1 l2, db.issued = l1 ++ c :: l2 ∧ c.text = r.sn ∧ ∀ x ∈ l1, x.text ≠ r.sn) ∧ c.rev = none := by
  rw [← findCert_iff]
  constructor
  · intro h
    unfold serve at h
    cases he : r.email with
    | none => rw [he] at h; cases h
    | some email =>
      rw [he] at h
      dsimp only at h
      split at h
      · cases h
      split at h
      · unfold handleRevoke at h
        split at h
        · cases h
        split at h
        · cases h
        split at h
        · cases h
        split at h
        · cases h
        split at h
        · cases h
        · cases h
      split at h
      · rename_i hg
        refine ⟨rfl, hg, ?_⟩
        unfold handleDownload at h
        split at h
        · cases h
        · rename_i hp
          split at h
          · cases h
          · rename_i c' hc'
            cases h
            exact ⟨by simpa using hp, hc'⟩
      split at h
      · cases h
      split at h
      · cases h
      · cases h
  · rintro ⟨h1, h2, h3, h4⟩
    obtain ⟨email, he⟩ := Option.isSome_iff_exists.1 h1
    rw [serve_download cfg lower db r email he h2]
    unfold handleDownload
    rw [h3, if_neg (by decide), h4]

/-- C124. "Permission denied" is the answer exactly to proper requests to revoke a certificate that is in force and
belongs to someone else; it says nothing else about a request. -/
theorem denied_iff (cfg : Cfg) (lower : Str → Str) (db : Db) (r : Req) :
    serve cfg lower db r = .denied ↔
      r.get = "revokeCert".toList ∧ r.post = true ∧ r.csrf = true ∧ ∃ email c, r.email = some email ∧
        (∃ l1 l2, db.issued = l1 ++ c :: l2 ∧ c.text = r.sn ∧ ∀ x ∈ l1, x.text ≠ r.sn) ∧ Spec.Is r.now c .valid ∧
        email ∉ c.emails ∧ ¬ (r.admin ≠ [] ∧ email ∈ cfg.admins) := by
  have hfind : ∀ c, (∃ l1 l2, db.issued = l1 ++ c :: l2 ∧ c.text = r.sn ∧ ∀ x ∈ l1, x.text ≠ r.sn) ∧
      Spec.Is r.now c .valid ↔ findCert db r.sn = some c ∧ r.now ≤ c.notAfter := by
    intro c
    rw [findCert_iff, and_assoc]
    rfl
  have e1 : ¬ "revokeCert".toList = "requestCert".toList := by decide
  constructor
  · intro h
    unfold serve at h
    cases he : r.email with
    | none => rw [he] at h; cases h
    | some email =>
      rw [he] at h
      dsimp only at h
      split at h
      · cases h
      split at h
      · rename_i hg
        unfold handleRevoke at h
        split at h
        · cases h
        rename_i hp
        split at h
        · cases h
        rename_i hc
        split at h
        · cases h
        rename_i c hf
        split at h
        · cases h
        rename_i hn
        split at h
        · rename_i hd
          obtain ⟨h1, h2⟩ := (hfind c).2 ⟨hf, by omega⟩
          refine ⟨hg, by simpa using hp, by simpa using hc, email, c, rfl, h1, h2, ?_⟩
          simp only [Bool.and_eq_true, Bool.not_eq_true', decide_eq_false_iff_not, Bool.and_eq_false_iff] at hd
          refine ⟨hd.2, fun hx => ?_⟩
          rcases hd.1 with h | h
          · exact h hx.1
          · exact h hx.2
        · cases h
      split at h
      · unfold handleDownload at h
        split at h
        · cases h
        split at h
        · cases h
        · cases h
      split at h
      · cases h
      split at h
      · cases h
      · cases h
  · rintro ⟨hg, hp, hc, email, c, he, h1, h2, h3, h4⟩
    obtain ⟨hf, hn⟩ := (hfind c).1 ⟨h1, h2⟩
    unfold serve
    rw [he, hg]
    dsimp only
    rw [if_neg e1, if_pos rfl]
    unfold handleRevoke
    rw [if_neg (by simp [hp]), if_neg (by simp [hc]), hf]
    dsimp only
    rw [if_neg (by omega), if_pos]
    simp only [Bool.and_eq_true, Bool.not_eq_true', decide_eq_false_iff_not, Bool.and_eq_false_iff]
    refine ⟨?_, h3⟩
    by_cases ha : r.admin ≠ []
    · exact .inr fun hx => h4 ⟨ha, hx⟩
    · exact .inl ha

/-- C124. The page answers with an internal error exactly to those who are not logged in, and to proper requests to
revoke or fetch a certificate that does not exist or is revoked already. -/
theorem internal_iff (cfg : Cfg) (lower : Str → Str) (db : Db) (r : Req) :
    serve cfg lower db r = .internalError ↔
      r.email = none ∨
      ((r.get = "revokeCert".toList ∧ r.post = true ∧ r.csrf = true ∨ r.get = "downloadCert".toList ∧ r.post = false) ∧
        ∀ c, ¬ ((∃ l1 l2, db.issued = l1 ++ c :: l2 ∧ c.text = r.sn ∧ ∀ x ∈ l1, x.text ≠ r.sn) ∧ c.rev = none)) := by
  simp only [← findCert_iff]
  have e1 : ¬ "revokeCert".toList = "requestCert".toList := by decide
  have hnone : (∀ c, ¬ findCert db r.sn = some c) ↔ findCert db r.sn = none := by
    cases findCert db r.sn <;> simp
  rw [hnone]
  constructor
  · intro h
    unfold serve at h
    cases he : r.email with
    | none => exact .inl rfl
    | some email =>
      rw [he] at h
      dsimp only at h
      refine .inr ?_
      split at h
      · cases h
      split at h
      · rename_i hg
        unfold handleRevoke at h
        split at h
        · cases h
        rename_i hp
        split at h
        · cases h
        rename_i hc
        split at h
        · rename_i hf
          exact ⟨.inl ⟨hg, by simpa using hp, by simpa using hc⟩, hf⟩
        split at h
        · cases h
        split at h
        · cases h
        · cases h
      split at h
      · rename_i hg
        unfold handleDownload at h
        split at h
        · cases h
        rename_i hp
        split at h
        · rename_i hf
          exact ⟨.inr ⟨hg, by simpa using hp⟩, hf⟩
        · cases h
      split at h
      · cases h
      split at h
      · cases h
      · cases h
  · rintro (he | ⟨⟨hg, hp, hc⟩ | ⟨hg, hp⟩, hf⟩)
    · exact login_needed cfg lower db r he
    · cases he : r.email with
      | none => exact login_needed cfg lower db r he
      | some email =>
        unfold serve
        rw [he, hg]
        dsimp only
        rw [if_neg e1, if_pos rfl]
        unfold handleRevoke
        rw [if_neg (by simp [hp]), if_neg (by simp [hc]), hf]
    · cases he : r.email with
      | none => exact login_needed cfg lower db r he
      | some email =>
        rw [serve_download cfg lower db r email he hg]
        unfold handleDownload
        rw [if_neg (by simp [hp]), hf]

/-- C124. The files of the page are sent to any logged-in user. -/
theorem static_iff (cfg : Cfg) (lower : Str → Str) (db : Db) (r : Req) :
    serve cfg lower db r = .static ↔ r.email.isSome ∧ r.get = "static".toList := by
  have e1 : ¬ "static".toList = "requestCert".toList := by decide
  have e2 : ¬ "static".toList = "revokeCert".toList := by decide
  have e3 : ¬ "static".toList = "downloadCert".toList := by decide
  unfold serve
  cases he : r.email with
  | none => simp
  | some email =>
    dsimp only
    constructor
    · intro h
      split at h
      · cases h
      split at h
      · unfold handleRevoke at h
        split at h
        · cases h
        split at h
        · cases h
        split at h
        · cases h
        split at h
        · cases h
        split at h
        · cases h
        · cases h
      split at h
      · unfold handleDownload at h
        split at h
        · cases h
        split at h
        · cases h
        · cases h
      split at h
      · exact ⟨rfl, by assumption⟩
      split at h
      · cases h
      · cases h
    · rintro ⟨-, h⟩
      rw [h, if_neg e1, if_neg e2, if_neg e3, if_pos rfl]

/-! ### Witnesses -/

def Spec.cert (n : Nat) (email : Str) (ca : Bool) (rev : Option Rev) : Cert :=
  { text := [Char.ofNat (48 + n)], serial := n, cn := email, emails := if ca then [] else [email],
    dns := [], uris := [], ips := [], clientAuth := true, serverAuth := false, isCA := ca,
    notAfter := 100, rev := rev }

/-- The CA's own certificate, one of Alice, one of Bob, and a revoked one of Bob. -/
def Spec.db : Db where
  issued := [Spec.cert 1 "ca".toList true none, Spec.cert 2 "alice".toList false none,
    Spec.cert 3 "bob".toList false none, Spec.cert 4 "bob".toList false (some ⟨5, 0⟩)]
  crlNumber := 0
  lists := []
  revoked := []

def Spec.cfg : Cfg := ⟨["alice".toList]⟩

/-- Non-vacuity of `download_iff` and `static_iff`: Alice gets Bob's certificate, but not the revoked one, and a file. -/
example :
    serve Spec.cfg id Spec.db { email := some "alice".toList, get := "downloadCert".toList, sn := "3".toList, now := 10 } =
      .pem (Spec.cert 3 "bob".toList false none) ∧
    (∀ c, serve Spec.cfg id Spec.db { email := some "alice".toList, get := "downloadCert".toList, sn := "4".toList, now := 10 } ≠
      .pem c) ∧
    serve Spec.cfg id Spec.db { email := some "alice".toList, get := "static".toList, now := 10 } = .static := by
  refine ⟨by decide +kernel, ?_, by decide +kernel⟩
  intro c h
  rw [download_iff] at h
  obtain ⟨-, -, -, ⟨l1, l2, h1, h2, -⟩, h3⟩ := h
  have hm : c ∈ Spec.db.issued := by rw [h1]; simp
  have : ∀ x ∈ Spec.db.issued, x.text = "4".toList → x.rev ≠ none := by decide +kernel
  exact this c hm h2 h3

/-- C124 (violated). An administrator opens the page as such (`admin=1`) and sees a revocation
button beside somebody else's certificate. The request the button sends does not carry the
parameter, and is answered "permission denied". -/
theorem offered_revoke_violated :
    ¬ ∀ (cfg : Cfg) (lower : Str → Str) (db : Db) (r : Req) (rs : List Row) (row : Row) (now : Nat),
      serve cfg lower db r = .page rs → (db.issued.map (·.text)).Nodup → row ∈ rs →
      .revoke ∈ buttons row → now ≤ row.cert.notAfter →
      Spec.fulfils .revoke row.cert (serve cfg lower db (click r .revoke row now)) := by
  intro h
  have := h Spec.cfg id Spec.db
    { email := some "alice".toList, admin := "1".toList, owner := "all".toList, now := 10 }
    [⟨Spec.cert 3 "bob".toList false none, .valid, true⟩, ⟨Spec.cert 2 "alice".toList false none, .valid, true⟩,
     ⟨Spec.cert 1 "ca".toList true none, .valid, false⟩]
    ⟨Spec.cert 3 "bob".toList false none, .valid, true⟩ 11
    (by decide +kernel) (by decide +kernel) (by decide +kernel) (by decide +kernel) (by decide +kernel)
  have hd : serve Spec.cfg id Spec.db (click
      { email := some "alice".toList, admin := "1".toList, owner := "all".toList, now := 10 } .revoke
      ⟨Spec.cert 3 "bob".toList false none, .valid, true⟩ 11) = .denied := by decide +kernel
  rw [hd] at this
  cases this

/-- C124 (violated). The page has View and Download buttons beside revoked certificates, which
are answered with an internal error. -/
theorem offered_view_violated :
    ¬ ∀ (cfg : Cfg) (lower : Str → Str) (db : Db) (r : Req) (rs : List Row) (row : Row) (now : Nat),
      serve cfg lower db r = .page rs → (db.issued.map (·.text)).Nodup → row ∈ rs →
      .view ∈ buttons row → now ≤ row.cert.notAfter →
      Spec.fulfils .view row.cert (serve cfg lower db (click r .view row now)) := by
  intro h
  have := h Spec.cfg id Spec.db
    { email := some "bob".toList, status := "revoked".toList, now := 10 }
    [⟨Spec.cert 4 "bob".toList false (some ⟨5, 0⟩), .revoked, true⟩]
    ⟨Spec.cert 4 "bob".toList false (some ⟨5, 0⟩), .revoked, true⟩ 11
    (by decide +kernel) (by decide +kernel) (by decide +kernel) (by decide +kernel) (by decide +kernel)
  have hd : serve Spec.cfg id Spec.db (click
      { email := some "bob".toList, status := "revoked".toList, now := 10 } .view
      ⟨Spec.cert 4 "bob".toList false (some ⟨5, 0⟩), .revoked, true⟩ 11) = .internalError := by decide +kernel
  rw [hd] at this
  cases this

/-- C124 (violated). The page never offers to revoke a CA certificate, but the handler does not
look at that: an administrator's request for the CA's own certificate is accepted. -/
theorem ca_revocable_violated :
    ¬ ∀ (cfg : Cfg) (lower : Str → Str) (db : Db) (r : Req) (c : Cert), c ∈ db.issued →
      (db.issued.map (·.serial)).Nodup → c.isCA = true → serve cfg lower db r ≠ .revoke c.serial := by
  intro h
  exact h Spec.cfg id Spec.db
    { email := some "alice".toList, get := "revokeCert".toList, admin := "1".toList, sn := "1".toList,
      post := true, csrf := true, now := 10 }
    (Spec.cert 1 "ca".toList true none) (by decide +kernel) (by decide +kernel) rfl (by decide +kernel)

/-- The hypotheses of `buttons_work_partial`: Bob's own certificate, and the button works. -/
example : ∃ rs row, serve Spec.cfg id Spec.db { email := some "bob".toList, now := 10 } = .page rs ∧
    row ∈ rs ∧ Button.revoke ∈ buttons row ∧ row.cert.emails = ["bob".toList] ∧
    serve Spec.cfg id Spec.db (click { email := some "bob".toList, now := 10 } .revoke row 11) = .revoke 3 :=
  ⟨[⟨Spec.cert 3 "bob".toList false none, .valid, true⟩], ⟨Spec.cert 3 "bob".toList false none, .valid, true⟩,
    by decide +kernel, by decide +kernel, by decide +kernel, by decide +kernel, by decide +kernel⟩

def Spec.ask (admin : Str) : Req :=
  { email := some "alice".toList, get := "revokeCert".toList, sn := "3".toList, admin := admin,
    post := true, csrf := true, now := 10 }

/-- Without `admin`, Alice's request for Bob's certificate is refused; with it, accepted. -/
example :
    serve Spec.cfg id Spec.db (Spec.ask []) = .denied ∧
    serve Spec.cfg id Spec.db (Spec.ask "1".toList) = .revoke 3 := by decide +kernel

example : serve Spec.cfg id Spec.db { Spec.ask [] with sn := "99".toList } = .internalError ∧
    serve Spec.cfg id Spec.db { Spec.ask [] with get := "other".toList } = .badRequest := by decide +kernel

end Verif.PkiPage
