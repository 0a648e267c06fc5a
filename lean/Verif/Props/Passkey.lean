import Verif.Lemmas.Passkey

/-!
# Passkey properties (C61, C62, C63, C64, C66, C91)

All theorems speak of the log (newest first) or the stored database of an arbitrary run
`run cfg ops init`, for every configuration, under `WF cfg ops init`: random values are new, the
clock does not go back, and every ceremony request starts by removing old challenges.
-/

namespace Verif.Passkey

open Assoc

/-! ## C61 -/

/-- C61: a registration or login uses a challenge that was issued at most 300 seconds before the
request began, and that no earlier registration or login used. -/
theorem challenge_fresh (cfg : Cfg) (ops : List Op) (hw : WF cfg ops init)
    (l1 l2 : List Event) (ev : Event) (hl : (run cfg ops init).log = l1 ++ ev :: l2) :
    (∀ page e h k c host r t0 now ck, ev = .added page e h k c host r t0 now ck →
      (∃ t, Event.issued r.data.chal (some c) t ∈ l2 ∧ t0 ≤ t + 300) ∧
      (∀ cl t cl' t', Event.issued r.data.chal cl t ∈ l2 →
        Event.issued r.data.chal cl' t' ∈ l2 → cl = cl' ∧ t = t')) ∧
    (∀ h k c r t0 now ck, ev = .login h k c r t0 now ck →
      (∃ cl t, Event.issued r.data.chal cl t ∈ l2 ∧ t0 ≤ t + 300) ∧
      (∀ cl t cl' t', Event.issued r.data.chal cl t ∈ l2 →
        Event.issued r.data.chal cl' t' ∈ l2 → cl = cl' ∧ t = t')) := by
  have i := (inv_run ops (inv_init cfg) hw).log
  have hc := logOk_split (hl ▸ i)
  have hu : ∀ x cl t cl' t', Event.issued x cl t ∈ l2 → Event.issued x cl' t' ∈ l2 →
      cl = cl' ∧ t = t' := by
    intro x cl t cl' t' h1 h2
    have hok : LogOk cfg l2 := by
      have := hl ▸ i
      clear hl hc
      induction l1 with
      | nil => exact this.2
      | cons a l ih => exact ih this.2
    clear hl hc
    induction l2 with
    | nil => cases h1
    | cons a l ih =>
      rcases List.mem_cons.1 h1 with q | q <;> rcases List.mem_cons.1 h2 with q' | q'
      · rw [← q] at q'
        cases q'
        exact ⟨rfl, rfl⟩
      · subst q
        exact absurd q' (hok.1 _ _)
      · subst q'
        exact absurd q (hok.1 _ _)
      · exact ih q q' hok.2
  constructor
  · rintro page e h k c host r t0 now ck rfl
    exact ⟨hc.2.1, hu _⟩
  · rintro h k c r t0 now ck rfl
    exact ⟨hc.1, hu _⟩

/-- The challenge in the browser's answer, for the events that accept one. -/
def Spec.answered : Event → Option Nat
  | .issued .. => none
  | .added _ _ _ _ _ _ r _ _ _ => some r.data.chal
  | .login _ _ _ r _ _ _ => some r.data.chal

/-- C61: no two accepted ceremonies have the same challenge, so a replay is never accepted. -/
theorem challenge_single_use (cfg : Cfg) (ops : List Op) (hw : WF cfg ops init)
    (l1 l2 l3 : List Event) (ev ev' : Event)
    (hl : (run cfg ops init).log = l1 ++ ev' :: (l2 ++ ev :: l3)) (c : Nat)
    (h1 : Spec.answered ev = some c) (h2 : Spec.answered ev' = some c) : False := by
  have i := (inv_run ops (inv_init cfg) hw).log
  have hc := logOk_split (hl ▸ i)
  have hm : ev ∈ l2 ++ ev :: l3 := List.mem_append_right _ List.mem_cons_self
  have hu : uses ev = some c := by cases ev <;> exact h1
  cases ev' with
  | issued => cases h2
  | added page e h k cc host r t0 now ck => cases h2; exact hc.2.2.1 ev hm hu
  | login h k cc r t0 now ck => cases h2; exact hc.2.1 ev hm hu

/-! ## C62 -/

/-- C62: a key is added to account `e` only in answer to a challenge issued for the very same
claims, whose email is `e`, on our origin, with user presence and verification. First registrations
are for allowed emails; others come from a session no more than ten minutes old that was itself
opened with a passkey. -/
theorem key_added_only (cfg : Cfg) (ops : List Op) (hw : WF cfg ops init)
    (l1 l2 : List Event) (page : Page) (e : Str) (h : Nat) (k : Key) (c : Claims) (host : Str)
    (r : AttReq) (t0 now : Nat) (ck : Bool)
    (hl : (run cfg ops init).log = l1 ++ .added page e h k c host r t0 now ck :: l2) :
    c.email = some e ∧ (∃ t, Event.issued r.data.chal (some c) t ∈ l2) ∧
    r.data.up = true ∧ r.data.uv = true ∧ r.data.origin = "https://".toList ++ host ∧
    r.data.rp = cfg.rpHash (cfg.hostOnly host) ∧ r.creds = some (k.id, k.pub) ∧
    (page = .first → cfg.allowed e = true) ∧
    (page = .manage → c.hhash = some (cfg.hhash host) ∧ c.passkey ≠ none ∧
      ∃ t, c.iat = some t ∧ now ≤ t + 600) ∧
    (∀ k' c' e', Added l2 e' h k' c' → e' = e) := by
  have hc := logOk_split (hl ▸ (inv_run ops (inv_init cfg) hw).log)
  obtain ⟨h1, ⟨t, h2, -⟩, -, -, h5, h6, h7, h8, h9, -, h11, h12, -, h14⟩ := hc
  refine ⟨h1, ⟨t, h2⟩, h7, h8, h5, h6, h9, h11, ?_, h14⟩
  intro hp
  have hm := h12 hp
  unfold manageOk at hm
  simp only [Bool.and_eq_true, decide_eq_true_eq] at hm
  refine ⟨hm.1.1.2, ?_, ?_⟩
  · intro hn
    rw [hn] at hm
    cases hm.2
  · cases hi : c.iat with
    | none => rw [hi] at hm; cases hm.1.2
    | some t => rw [hi] at hm; exact ⟨t, rfl, of_decide_eq_true hm.1.2⟩

/-- The keys stored under a handle. -/
def Spec.stored (s : State) (h : Nat) : List Key :=
  match get s.disk.handles h with
  | none => []
  | some u => u.keys

theorem disk_reread {s : State} {h : Nat} {u : User} (hu : get s.disk.handles h = some u) :
    get (reread s).handles h = some u := by
  show get (overlay s.disk.handles s.db.handles) h = _
  rw [get_overlay, hu]
  rfl

theorem commit_disk (s : State) (c : Commit) (db : Db) :
    (commit s c db).disk = if c = .ok then db else s.disk := by
  unfold commit
  split <;> rfl

/-- What a registration does to the stored keys. -/
theorem attest_stored {cfg : Cfg} {s : State} (i : Inv cfg s) (page : Page) (now t0 : Nat)
    (claims : Claims) (host : Str) (r : AttReq) (c : Commit) (h : Nat) (u : User)
    (hu : get s.disk.handles h = some u) :
    ∃ u', get (attest cfg s page now t0 claims host r c).disk.handles h = some u' ∧
      (u' = u ∨ ((page = .first → u.keys = []) ∧ u.claims.email = claims.email ∧
        ∃ k, u'.keys = u.keys ++ [k])) := by
  have hg := reread_good i
  have hr := disk_reread hu
  have hends := attest_ends cfg s page now t0 claims host r c
  revert hends
  generalize attest cfg s page now t0 claims host r c = s'
  intro hends
  cases hends with
  | same => exact ⟨u, hu, .inl rfl⟩
  | consumed => exact ⟨u, hu, .inl rfl⟩
  | full => exact ⟨u, hu, .inl rfl⟩
  | done e ch h0 u0 db id pub he ht ho hch hcl hrp hup huv hcr hop hen hpg ck hck =>
    show ∃ u', get (commit _ c _).disk.handles h = some u' ∧ _
    rw [commit_disk]
    split
    · show ∃ u', get (put db.handles h0 _) h = some u' ∧ _
      unfold ensureUser at hen
      cases hs : get (reread s).subjects e with
      | some h1 =>
        obtain ⟨u1, hu1, hue⟩ := hg.subj e h1 hs
        rw [hs] at hen
        dsimp only at hen
        rw [hu1] at hen
        simp only [Prod.mk.injEq] at hen
        obtain ⟨rfl, rfl, rfl⟩ := hen
        rw [get_put]
        split
        · rename_i hx
          subst hx
          rw [hr] at hu1
          cases hu1
          exact ⟨_, rfl, .inr ⟨hpg, by rw [hue, he], _, rfl⟩⟩
        · exact ⟨u, hr, .inl rfl⟩
      | none =>
        rw [hs] at hen
        simp only [Prod.mk.injEq] at hen
        obtain ⟨rfl, rfl, rfl⟩ := hen
        have hne : h ≠ ch.uid := by
          rintro rfl
          obtain ⟨e1, he1, hs1, -, k1, c1, ha1, -⟩ := hg.hand _ _ hr
          obtain ⟨e2, he2, ho2⟩ := i.chE _ _ _ (get_mem hch) hcl
          rw [he] at he2
          cases he2
          rw [ho2 e1 k1 c1 ha1, hs] at hs1
          cases hs1
        rw [get_put, if_neg hne, get_put, if_neg hne]
        exact ⟨u, hr, .inl rfl⟩
    · exact ⟨u, hu, .inl rfl⟩

theorem assert_stored {cfg : Cfg} {s : State} (now t0 : Nat) (token : Option Claims)
    (r : AsrtReq) (c : Commit) (h : Nat) (u : User) (hu : get s.disk.handles h = some u) :
    ∃ u', get (assert cfg s now t0 token r c).disk.handles h = some u' ∧ u'.keys = u.keys := by
  have hr := disk_reread hu
  have hput : ∀ h0 u0, get (reread s).handles h0 = some u0 → ∀ s1 : State, s1.disk = s.disk →
      ∃ u', get (commit s1 c ⟨put (reread s).handles h0 { u0 with claims := refreshed u0 token },
        (reread s).subjects⟩).disk.handles h = some u' ∧ u'.keys = u.keys := by
    intro h0 u0 hu0 s1 hs1
    rw [commit_disk]
    split
    · show ∃ u', get (put _ h0 _) h = some u' ∧ _
      rw [get_put]
      split
      · rename_i hx
        subst hx
        rw [hr] at hu0
        cases hu0
        exact ⟨_, rfl, rfl⟩
      · exact ⟨u, hr, rfl⟩
    · rw [hs1]
      exact ⟨u, hu, rfl⟩
  have hends := assert_ends cfg s now t0 token r c
  revert hends
  generalize assert cfg s now t0 token r c = s'
  intro hends
  cases hends with
  | same => exact ⟨u, hu, rfl⟩
  | consumed => exact ⟨u, hu, rfl⟩
  | refused => exact ⟨u, hu, rfl⟩
  | failed h0 u0 k hu0 hc => exact hput h0 u0 hu0 _ rfl
  | done ch h0 u0 k ht hup huv hch hl hu0 => exact hput h0 u0 hu0 _ rfl

theorem delete_stored {cfg : Cfg} {s : State} (i : Inv cfg s) (now : Nat) (claims : Claims)
    (host : Str) (id : Nat) (c : Commit) (h : Nat) (u : User)
    (hu : get s.disk.handles h = some u) :
    ∃ u', get (delete cfg s now claims host id c).disk.handles h = some u' ∧
      (u' = u ∨ (c = .ok ∧ manageOk cfg host claims now = true ∧ claims.passkey ≠ some id ∧
        u.claims.email = some (claims.email.getD []) ∧
        u'.keys = u.keys.filter fun k => decide (k.id ≠ id))) := by
  have hr := disk_reread hu
  unfold delete
  split
  · exact ⟨u, hu, .inl rfl⟩
  rename_i h1
  split
  · exact ⟨u, hu, .inl rfl⟩
  rename_i h2
  split
  · exact ⟨u, hu, .inl rfl⟩
  cases hd : deleteKey (reread s) (claims.email.getD []) id with
  | none => exact ⟨u, hu, .inl rfl⟩
  | some db =>
    obtain ⟨h0, u0, hs0, hu0, rfl⟩ := deleteKey_some hd
    show ∃ u', get (commit _ c _).disk.handles h = some u' ∧ _
    rw [commit_disk]
    split
    · rename_i hc
      show ∃ u', get (put _ h0 _) h = some u' ∧ _
      rw [get_put]
      split
      · rename_i hx
        subst hx
        rw [hr] at hu0
        cases hu0
        obtain ⟨u1, hu1, he1⟩ := (reread_good i).subj _ _ hs0
        rw [hr] at hu1
        cases hu1
        exact ⟨_, rfl, .inr ⟨hc, by simpa using h1, h2, he1, rfl⟩⟩
      · exact ⟨u, hr, .inl rfl⟩
    · exact ⟨u, hu, .inl rfl⟩

/-- C62: a stored account that has keys gets another one only through the key management page, and
then one key, for the email of the session. -/
theorem second_key_only_managed (cfg : Cfg) (ops : List Op) (hw : WF cfg ops init) (op : Op)
    (h : Nat) (u : User) (hu : get (run cfg ops init).disk.handles h = some u)
    (hk : u.keys ≠ []) (k : Key) (hnew : k ∈ Spec.stored (step cfg (run cfg ops init) op) h)
    (hold : k ∉ u.keys) :
    ∃ now t0 claims host req c, op = .attest .manage now t0 claims host req c ∧
      manageOk cfg host claims now = true ∧ claims.email = u.claims.email ∧
      Spec.stored (step cfg (run cfg ops init) op) h = u.keys ++ [k] := by
  have i := inv_run ops (inv_init cfg) hw
  revert i hu hnew
  generalize run cfg ops init = s
  intro hu hnew i
  have hst : ∀ {s' : State} {w : User}, get s'.disk.handles h = some w → Spec.stored s' h = w.keys := by
    intro s' w hw
    unfold Spec.stored
    rw [hw]
  have hsame : (step cfg s op).disk = s.disk → False := by
    intro hd
    rw [hst (w := u) (by rw [hd]; exact hu)] at hnew
    exact hold hnew
  cases op with
  | vacuum => exact (hsame rfl).elim
  | reload => exact (hsame rfl).elim
  | restart => exact (hsame rfl).elim
  | attOptions page now t claims host chal uid =>
    refine (hsame ?_).elim
    show (if _ then s else attOptions s t claims chal uid).disk = _
    split
    · rfl
    unfold attOptions
    cases claims.email with
    | none => rfl
    | some e =>
      dsimp only
      cases attUid s.db e uid <;> rfl
  | asrtOptions => exact (hsame rfl).elim
  | attest page now t0 claims host req c =>
    cases page with
    | first =>
      have hstep : step cfg s (.attest .first now t0 claims host req c) =
        if !cfg.allowed (claims.email.getD []) then s
        else attest cfg s .first now t0 claims host req c := rfl
      rw [hstep] at hnew hsame
      split at hnew
      · rename_i hx
        rw [if_pos hx] at hsame
        exact (hsame rfl).elim
      · obtain ⟨u', hu', h1⟩ := attest_stored i .first now t0 claims host req c h u hu
        rw [hst hu'] at hnew
        rcases h1 with rfl | ⟨h1, -⟩
        · exact (hold hnew).elim
        · exact (hk (h1 rfl)).elim
    | manage =>
      have hstep : step cfg s (.attest .manage now t0 claims host req c) =
        if !manageOk cfg host claims now then s
        else attest cfg s .manage now t0 claims host req c := rfl
      rw [hstep] at hnew hsame ⊢
      split at hnew
      · rename_i hx
        rw [if_pos hx] at hsame
        exact (hsame rfl).elim
      · rename_i hx
        rw [if_neg hx]
        obtain ⟨u', hu', h1⟩ := attest_stored i .manage now t0 claims host req c h u hu
        rw [hst hu'] at hnew
        rcases h1 with rfl | ⟨-, h2, k', h3⟩
        · exact (hold hnew).elim
        · refine ⟨now, t0, claims, host, req, c, rfl, by simpa using hx, h2.symm, ?_⟩
          rw [hst hu', h3]
          rw [h3] at hnew
          rcases List.mem_append.1 hnew with hn | hn
          · exact (hold hn).elim
          · rw [List.mem_singleton.1 hn]
  | assert now t0 token req c =>
    obtain ⟨u', hu', h1⟩ := assert_stored (cfg := cfg) now t0 token req c h u hu
    have hnew' : k ∈ Spec.stored (assert cfg s now t0 token req c) h := hnew
    rw [hst hu', h1] at hnew'
    exact (hold hnew').elim
  | delete now claims host id c =>
    obtain ⟨u', hu', h1⟩ := delete_stored i now claims host id c h u hu
    have hnew' : k ∈ Spec.stored (delete cfg s now claims host id c) h := hnew
    rw [hst hu'] at hnew'
    rcases h1 with rfl | ⟨-, -, -, -, h1⟩
    · exact (hold hnew').elim
    · rw [h1] at hnew'
      exact (hold (List.mem_filter.1 hnew').1).elim

/-! ## C63 -/

/-- C63: an accepted login is for an account `e` under which the very credential was registered
earlier, and the result has that account's email and the subject of a registration of that account;
the signature verifies with the registered public key over this answer, with user presence and
verification. -/
theorem login_identity (cfg : Cfg) (ops : List Op) (hw : WF cfg ops init)
    (l1 l2 : List Event) (h : Nat) (k : Key) (c : Claims) (r : AsrtReq) (t0 now : Nat) (ck : Bool)
    (hl : (run cfg ops init).log = l1 ++ .login h k c r t0 now ck :: l2) :
    r.cred = k.id ∧ cfg.verify k.pub r.data r.sig = true ∧ r.data.typ = 1 ∧
    r.data.up = true ∧ r.data.uv = true ∧ c.passkey = some k.id ∧
    ∃ e, c.email = some e ∧ (∃ c', Added l2 e h k c') ∧
      (∃ k' c', Added l2 e h k' c' ∧ c'.sub = c.sub) ∧
      (∀ e' k' c', Added l2 e' h k' c' → e' = e) := by
  have i := (inv_run ops (inv_init cfg) hw).log
  have hc := logOk_split (hl ▸ i)
  obtain ⟨-, -, h3, h4, h5, h6, -, h8, h9, -, e, he, ⟨c', ha⟩, hs⟩ := hc
  refine ⟨h6, h8, h3, h4, h5, h9, e, he, ⟨c', ha⟩, hs, ?_⟩
  intro e' k' c'' ha'
  have hsub : ∀ x ∈ l2, x ∈ (run cfg ops init).log := by
    intro x hx
    rw [hl]
    exact List.mem_append_right _ (List.mem_cons_of_mem _ hx)
  exact added_unique i (ha'.mono hsub) (ha.mono hsub)

theorem cookieOk_names {c : Claims} (h : cookieOk c = true) :
    (∃ x, c.sub = some x ∧ x ≠ []) ∧ ∃ x, c.email = some x ∧ x ≠ [] := by
  unfold cookieOk at h
  simp only [Bool.and_eq_true] at h
  obtain ⟨⟨h1, h2⟩, -⟩ := h
  constructor
  · cases hs : c.sub with
    | none => rw [hs] at h1; cases h1
    | some x => rw [hs] at h1; exact ⟨x, rfl, of_decide_eq_true h1⟩
  · cases hs : c.email with
    | none => rw [hs] at h2; cases h2
    | some x => rw [hs] at h2; exact ⟨x, rfl, of_decide_eq_true h2⟩

/-- C63: a login cookie, after a login with a passkey or after the registration of the first one,
always names somebody: the subject and the email address are not empty. -/
theorem cookie_named (cfg : Cfg) (ops : List Op) (hw : WF cfg ops init) (c : Claims)
    (hl : (∃ h k r t0 now, Event.login h k c r t0 now true ∈ (run cfg ops init).log) ∨
      ∃ page e h k host r t0 now,
        Event.added page e h k c host r t0 now true ∈ (run cfg ops init).log) :
    (∃ x, c.sub = some x ∧ x ≠ []) ∧ ∃ x, c.email = some x ∧ x ≠ [] := by
  have i := (inv_run ops (inv_init cfg) hw).log
  rcases hl with ⟨h, k, r, t0, now, hm⟩ | ⟨page, e, h, k, host, r, t0, now, hm⟩
  · obtain ⟨l1, l2, hl⟩ := List.append_of_mem hm
    obtain ⟨-, -, -, -, -, -, -, -, -, h10, -⟩ := logOk_split (hl ▸ i)
    exact cookieOk_names (h10 rfl).2
  · obtain ⟨l1, l2, hl⟩ := List.append_of_mem hm
    obtain ⟨-, -, -, -, -, -, -, -, -, -, -, -, h13, -⟩ := logOk_split (hl ▸ i)
    exact cookieOk_names (h13 rfl).2

/-! ## C64 -/

/-- C64, the part that holds: the authenticator made the assertion for the relying party of the
registration, which was made on our origin for that relying party. -/
theorem login_relying_party_partial (cfg : Cfg) (ops : List Op) (hw : WF cfg ops init)
    (l1 l2 : List Event) (h : Nat) (k : Key) (c : Claims) (r : AsrtReq) (t0 now : Nat) (ck : Bool)
    (hl : (run cfg ops init).log = l1 ++ .login h k c r t0 now ck :: l2) :
    ∃ page e c' host r' t0' now' ck', Event.added page e h k c' host r' t0' now' ck' ∈ l2 ∧
      r.data.rp = cfg.rpHash (cfg.hostOnly host) ∧
      r'.data.origin = "https://".toList ++ host := by
  have i := (inv_run ops (inv_init cfg) hw).log
  have hc := logOk_split (hl ▸ i)
  obtain ⟨-, -, -, -, -, -, hrp, -, -, -, e, -, ⟨c', page, host, r', t0', now', ck', hm⟩, -⟩ := hc
  refine ⟨page, e, c', host, r', t0', now', ck', hm, ?_⟩
  obtain ⟨l3, l4, rfl⟩ := List.append_of_mem hm
  have hl' : (run cfg ops init).log =
      (l1 ++ .login h k c r t0 now ck :: l3) ++
        .added page e h k c' host r' t0' now' ck' :: l4 := by
    rw [hl]
    simp
  have hc' := logOk_split (hl' ▸ i)
  obtain ⟨-, -, -, -, h5, h6, -, -, -, h10, -⟩ := hc'
  exact ⟨by rw [hrp, h10, h6], h5⟩

/-! ## C66 -/

/-- C66: a stored key disappears only by a delete request that addresses it, from a session that
belongs to the key's account, was opened at most ten minutes before with another passkey, and is
for this host. -/
theorem key_removed_only (cfg : Cfg) (ops : List Op) (hw : WF cfg ops init) (op : Op)
    (h : Nat) (u : User) (hu : get (run cfg ops init).disk.handles h = some u)
    (k : Key) (hk : k ∈ u.keys) (hgone : k ∉ Spec.stored (step cfg (run cfg ops init) op) h) :
    ∃ now claims host, op = .delete now claims host k.id .ok ∧
      u.claims.email = some (claims.email.getD []) ∧ claims.hhash = some (cfg.hhash host) ∧
      (∃ t, claims.iat = some t ∧ now ≤ t + 600) ∧
      (∃ id', claims.passkey = some id' ∧ id' ≠ k.id) := by
  have i := inv_run ops (inv_init cfg) hw
  revert i hu hgone
  generalize run cfg ops init = s
  intro hu hgone i
  have hst : ∀ {s' : State} {w : User}, get s'.disk.handles h = some w → Spec.stored s' h = w.keys := by
    intro s' w hw
    unfold Spec.stored
    rw [hw]
  have hsame : (step cfg s op).disk = s.disk → False := by
    intro hd
    rw [hst (w := u) (by rw [hd]; exact hu)] at hgone
    exact hgone hk
  cases op with
  | vacuum => exact (hsame rfl).elim
  | reload => exact (hsame rfl).elim
  | restart => exact (hsame rfl).elim
  | attOptions page now t claims host chal uid =>
    refine (hsame ?_).elim
    show (if _ then s else attOptions s t claims chal uid).disk = _
    split
    · rfl
    unfold attOptions
    cases claims.email with
    | none => rfl
    | some e =>
      dsimp only
      cases attUid s.db e uid <;> rfl
  | asrtOptions => exact (hsame rfl).elim
  | attest page now t0 claims host req c =>
    have key : k ∈ Spec.stored (attest cfg s page now t0 claims host req c) h := by
      obtain ⟨u', hu', h1⟩ := attest_stored i page now t0 claims host req c h u hu
      rw [hst hu']
      rcases h1 with rfl | ⟨-, -, k', h3⟩
      · exact hk
      · rw [h3]
        exact List.mem_append_left _ hk
    cases page with
    | first =>
      have hstep : step cfg s (.attest .first now t0 claims host req c) =
        if !cfg.allowed (claims.email.getD []) then s
        else attest cfg s .first now t0 claims host req c := rfl
      rw [hstep] at hgone hsame
      split at hgone
      · rename_i hx
        rw [if_pos hx] at hsame
        exact (hsame rfl).elim
      · exact (hgone key).elim
    | manage =>
      have hstep : step cfg s (.attest .manage now t0 claims host req c) =
        if !manageOk cfg host claims now then s
        else attest cfg s .manage now t0 claims host req c := rfl
      rw [hstep] at hgone hsame
      split at hgone
      · rename_i hx
        rw [if_pos hx] at hsame
        exact (hsame rfl).elim
      · exact (hgone key).elim
  | assert now t0 token req c =>
    obtain ⟨u', hu', h1⟩ := assert_stored (cfg := cfg) now t0 token req c h u hu
    refine (hgone ?_).elim
    show k ∈ Spec.stored (assert cfg s now t0 token req c) h
    rw [hst hu', h1]
    exact hk
  | delete now claims host id c =>
    obtain ⟨u', hu', h1⟩ := delete_stored i now claims host id c h u hu
    have hgone' : k ∉ Spec.stored (delete cfg s now claims host id c) h := hgone
    rw [hst hu'] at hgone'
    rcases h1 with rfl | ⟨rfl, hm, hp, he, h1⟩
    · exact (hgone' hk).elim
    · rw [h1] at hgone'
      have hid : k.id = id := by
        refine Decidable.byContradiction fun hne => hgone' ?_
        exact List.mem_filter.2 ⟨hk, by simpa using hne⟩
      subst hid
      unfold manageOk at hm
      simp only [Bool.and_eq_true, decide_eq_true_eq] at hm
      refine ⟨now, claims, host, rfl, he, hm.1.1.2, ?_, ?_⟩
      · cases hi : claims.iat with
        | none => rw [hi] at hm; cases hm.1.2
        | some t => rw [hi] at hm; exact ⟨t, rfl, of_decide_eq_true hm.1.2⟩
      · cases hi : claims.passkey with
        | none => rw [hi] at hm; cases hm.2
        | some id' => exact ⟨id', rfl, fun hx => hp (by rw [hi, hx])⟩

/-! ## C91 -/

/-- C91, for logins with an existing passkey: with a refresh interval, the login cookie is issued
only if the stored identity is no older than the interval. -/
theorem login_refreshed_partial (cfg : Cfg) (ops : List Op) (hw : WF cfg ops init)
    (l1 l2 : List Event) (h : Nat) (k : Key) (c : Claims) (r : AsrtReq) (t0 now : Nat)
    (hl : (run cfg ops init).log = l1 ++ .login h k c r t0 now true :: l2) (hr : 0 < cfg.refresh) :
    ∃ t, c.iat = some t ∧ now ≤ t + cfg.refresh := by
  have hc := logOk_split (hl ▸ (inv_run ops (inv_init cfg) hw).log)
  obtain ⟨-, -, -, -, -, -, -, -, -, h10, -⟩ := hc
  have := (h10 rfl).1
  unfold recent at this
  rw [if_neg (by omega)] at this
  cases hi : c.iat with
  | none => rw [hi] at this; cases this
  | some t => rw [hi] at this; exact ⟨t, rfl, of_decide_eq_true this⟩

/-! ## A concrete run -/

namespace Ex

def host : Str := "p.example".toList

def cfg : Cfg where
  rpHash := List.length
  hostOnly h := h
  hhash := List.length
  epHost := fun _ => host
  allowed e := decide (e = "a@x".toList)
  refresh := 1000
  verify pub _ sig := decide (pub = sig)

def alice (iat : Nat) : Claims := ⟨some "alice".toList, some "a@x".toList, some iat, none, none, true, 0⟩

def sess (iat : Nat) (k : Nat) : Claims :=
  { alice iat with hhash := some (List.length host), passkey := some k }

def origin : Str := "https://".toList ++ host

def evil : Str := "https://evil".toList

def data (typ chal : Nat) (o : Str) : Data := ⟨typ, chal, o, 9, true, true⟩

/-- Alice registers key 7 at 10, logs in at 20 (with the assertion made on another origin), starts
adding a key at 30 but answers with an assertion, adds key 8, deletes key 7, restarts. -/
def ops : List Op :=
  [.vacuum 10, .attOptions .first 10 10 (alice 5) host 1 100,
   .vacuum 12, .attest .first 12 12 (alice 5) host ⟨data 0 1 origin, some (7, 70)⟩ .ok,
   .vacuum 20, .asrtOptions 20 2,
   .vacuum 22, .assert 22 22 none ⟨data 1 2 evil, some 100, [], 7, 70⟩ .ok,
   .vacuum 30, .attOptions .manage 30 30 (sess 22 7) host 3 101,
   .vacuum 31, .assert 31 31 none ⟨data 1 3 origin, none, "a@x".toList, 7, 70⟩ .ok,
   .vacuum 32, .attOptions .manage 32 32 (sess 31 7) host 4 102,
   .vacuum 33, .attest .manage 33 33 (sess 31 7) host ⟨data 0 4 origin, some (8, 80)⟩ .ok,
   .delete 40 (sess 35 8) host 7 .ok,
   .restart]

/-- Checks `Pre`. -/
def preB (s : State) : Op → Bool
  | .attOptions _ _ t _ _ chal uid =>
    s.vacs.all (fun v => decide (v ≤ t)) &&
    s.log.all (fun ev => match ev with | .issued c _ _ => decide (c ≠ chal) | _ => true) &&
    s.log.all (fun ev => match ev with | .added _ _ h _ _ _ _ _ _ _ => decide (h ≠ uid) | _ => true) &&
    s.challenges.all (fun p => p.2.claims.isNone || decide (p.2.uid ≠ uid))
  | .asrtOptions t chal =>
    s.vacs.all (fun v => decide (v ≤ t)) &&
    s.log.all (fun ev => match ev with | .issued c _ _ => decide (c ≠ chal) | _ => true)
  | .attest _ _ t0 _ _ _ _ => decide (t0 ∈ s.vacs)
  | .assert _ t0 _ _ _ => decide (t0 ∈ s.vacs)
  | _ => true

theorem preB_sound {s : State} {op : Op} (h : preB s op = true) : Pre s op := by
  cases op with
  | attOptions _ _ t _ _ chal uid =>
    simp only [preB, Bool.and_eq_true, List.all_eq_true, decide_eq_true_eq] at h
    obtain ⟨⟨⟨h1, h2⟩, h3⟩, h4⟩ := h
    refine ⟨h1, ?_, ?_, ?_⟩
    · intro c t' hm
      simpa using h2 _ hm
    · rintro e k c ⟨page, host, r, t0, now, ck, hm⟩
      simpa using h3 _ hm
    · intro c ch hm hn hx
      have := h4 _ hm
      simp only [Bool.or_eq_true, Option.isNone_iff_eq_none, decide_eq_true_eq] at this
      rcases this with h | h
      · exact hn h
      · exact h hx
  | asrtOptions t chal =>
    simp only [preB, Bool.and_eq_true, List.all_eq_true, decide_eq_true_eq] at h
    refine ⟨h.1, ?_⟩
    intro c t' hm
    simpa using h.2 _ hm
  | attest _ _ t0 => exact of_decide_eq_true (p := t0 ∈ s.vacs) h
  | assert _ t0 => exact of_decide_eq_true (p := t0 ∈ s.vacs) h
  | vacuum => trivial
  | reload => trivial
  | restart => trivial
  | delete => trivial

def wfB (cfg : Cfg) : List Op → State → Bool
  | [], _ => true
  | o :: os, s => preB s o && wfB cfg os (step cfg s o)

theorem wfB_sound {cfg : Cfg} : ∀ {ops : List Op} {s : State}, wfB cfg ops s = true → WF cfg ops s
  | [], _, _ => trivial
  | o :: os, s, h => by
    unfold wfB at h
    rw [Bool.and_eq_true] at h
    exact ⟨preB_sound h.1, wfB_sound h.2⟩

theorem wf : WF cfg ops init := wfB_sound (by decide +kernel)

/-- The run is not trivial: two registrations, two logins with a cookie. -/
example : (run cfg ops init).log.map (fun ev => match ev with
    | .issued c _ _ => (0, c, false)
    | .added _ _ _ k _ _ _ _ _ ck => (1, k.id, ck)
    | .login _ k _ _ _ _ ck => (2, k.id, ck)) =
    [(1, 8, false), (0, 4, false), (2, 7, true), (0, 3, false), (2, 7, true), (0, 2, false),
     (1, 7, true), (0, 1, false)] := by decide +kernel

/-- Only key 8 is left in the end; both were stored before the deletion. -/
example : (Spec.stored (run cfg ops init) 100).map Key.id = [8] ∧
    (Spec.stored (run cfg (ops.take 16) init) 100).map Key.id = [7, 8] := by decide +kernel

/-- A second registration on the first page, and a replay, are refused. -/
example : (Spec.stored (run cfg (ops.take 8 ++
    [.vacuum 50, .attOptions .first 50 50 (alice 45) host 9 103, .vacuum 51,
     .attest .first 51 51 (alice 45) host ⟨data 0 9 origin, some (9, 90)⟩ .ok]) init) 100).map Key.id =
      [7] ∧
    (run cfg (ops.take 8 ++ [.vacuum 23, .assert 23 23 none
      ⟨data 1 2 evil, some 100, [], 7, 70⟩ .ok]) init).log =
    (run cfg (ops.take 8) init).log := by decide +kernel

end Ex

/-- C64 is violated: a login (with a cookie) from an assertion made on another origin, and another
with a challenge issued for registering a key. -/
theorem login_origin_violated : ∃ cfg ops, WF cfg ops init ∧
    (∃ h k c r t0 now, Event.login h k c r t0 now true ∈ (run cfg ops init).log ∧
      ∀ page e c' host r' t0' now' ck',
        Event.added page e h k c' host r' t0' now' ck' ∈ (run cfg ops init).log →
          r.data.origin ≠ "https://".toList ++ host) ∧
    (∃ h k c r t0 now cl t, Event.login h k c r t0 now true ∈ (run cfg ops init).log ∧
      Event.issued r.data.chal (some cl) t ∈ (run cfg ops init).log) := by
  refine ⟨Ex.cfg, Ex.ops, Ex.wf, ?_, ?_⟩
  · refine ⟨100, ⟨7, 70, 9⟩, { Ex.alice 5 with passkey := some 7 },
      ⟨Ex.data 1 2 Ex.evil, some 100, [], 7, 70⟩, 22, 22, by decide +kernel, ?_⟩
    intro page e c' host r' t0' now' ck' hm
    have hall : (run Ex.cfg Ex.ops init).log.all (fun ev => match ev with
        | .added _ _ _ _ _ host _ _ _ _ => decide (host = Ex.host)
        | _ => true) = true := by decide +kernel
    have := List.all_eq_true.1 hall _ hm
    have hh : host = Ex.host := of_decide_eq_true this
    subst hh
    decide +kernel
  · exact ⟨100, ⟨7, 70, 9⟩, { Ex.alice 5 with passkey := some 7 },
      ⟨Ex.data 1 3 Ex.origin, none, "a@x".toList, 7, 70⟩, 31, 31, Ex.sess 22 7, 30,
      by decide +kernel, by decide +kernel⟩

/-- C91 is violated by first registrations: the cookie is issued although the identity is older
than the refresh interval. -/
theorem registration_refreshed_violated : ∃ cfg ops, WF cfg ops init ∧ 0 < cfg.refresh ∧
    ∃ page e h k c host r t0 now t,
      Event.added page e h k c host r t0 now true ∈ (run cfg ops init).log ∧
        c.iat = some t ∧ t + cfg.refresh < now := by
  refine ⟨Ex.cfg, [.vacuum 5000, .attOptions .first 5000 5000 (Ex.alice 5) Ex.host 1 100,
    .vacuum 5001, .attest .first 5001 5001 (Ex.alice 5) Ex.host
      ⟨Ex.data 0 1 Ex.origin, some (7, 70)⟩ .ok], Ex.wfB_sound (by decide +kernel), by decide, ?_⟩
  exact ⟨.first, "a@x".toList, 100, ⟨7, 70, 9⟩, Ex.alice 5, Ex.host,
    ⟨Ex.data 0 1 Ex.origin, some (7, 70)⟩, 5001, 5001, 5, by decide +kernel, rfl, by decide⟩

/-! ## The way in is open -/

/-- The user, with handle `h` and the record `u`, and the key that a login request is about, as stored in `db`:
the handle the authenticator returned, or else that of a login name that is not empty; the user's first key
with the credential id; for the key's relying party and with a good signature. -/
structure Spec.Known (cfg : Cfg) (db : Db) (r : AsrtReq) (h : Nat) (u : User) (k : Key) : Prop where
  user : r.handle = some h ∨ (r.handle = none ∧ r.loginID ≠ [] ∧ Assoc.get db.subjects r.loginID = some h)
  record : Assoc.get db.handles h = some u
  key : ∃ l1 l2, u.keys = l1 ++ k :: l2 ∧ k.id = r.cred ∧ ∀ x ∈ l1, x.id ≠ r.cred
  rp : r.data.rp = k.rp
  sig : cfg.verify k.pub r.data r.sig = true

theorem asrtCheck_iff (cfg : Cfg) (db : Db) (r : AsrtReq) (h : Nat) (u : User) (k : Key) :
    asrtCheck cfg db r = some (h, u, k) ↔ Spec.Known cfg db r h u k := by
  have hh : loginHandle db r = some h ↔
      r.handle = some h ∨ (r.handle = none ∧ r.loginID ≠ [] ∧ Assoc.get db.subjects r.loginID = some h) := by
    unfold loginHandle
    cases r.handle with
    | some x => simp
    | none => by_cases hl : r.loginID = [] <;> simp [hl]
  have hf : ∀ u : User, u.keys.find? (fun k => decide (k.id = r.cred)) = some k ↔
      ∃ l1 l2, u.keys = l1 ++ k :: l2 ∧ k.id = r.cred ∧ ∀ x ∈ l1, x.id ≠ r.cred := by
    intro u
    rw [List.find?_eq_some_iff_append]
    simp only [decide_eq_true_eq, Bool.not_eq_true', decide_eq_false_iff_not]
    constructor
    · rintro ⟨h1, l1, l2, h2, h3⟩; exact ⟨l1, l2, h2, h1, h3⟩
    · rintro ⟨l1, l2, h2, h1, h3⟩; exact ⟨h1, l1, l2, h2, h3⟩
  constructor
  · intro hc
    unfold asrtCheck at hc
    split at hc
    · cases hc
    · rename_i h' hl
      split at hc
      · cases hc
      · rename_i u' hu
        split at hc
        · cases hc
        · rename_i k' hk
          split at hc
          · cases hc
          · rename_i hrp
            split at hc
            · cases hc
            · rename_i hv
              cases hc
              exact ⟨hh.1 hl, hu, (hf u).1 hk, Decidable.not_not.1 hrp, by simpa using hv⟩
  · intro hk
    unfold asrtCheck
    rw [hh.2 hk.user]
    dsimp only
    rw [hk.record]
    dsimp only
    rw [(hf u).2 hk.key]
    dsimp only
    rw [if_neg (fun h => h hk.rp), hk.sig]
    rfl

/-- The identity is complete: subject and email are there and not empty, and so is the session id. -/
def Spec.Complete (c : Claims) : Prop :=
  (∃ x, x ≠ [] ∧ c.sub = some x) ∧ (∃ x, x ≠ [] ∧ c.email = some x) ∧ c.sid = true

/-- The identity is recent enough, if the configuration asks for it. -/
def Spec.Recent (cfg : Cfg) (c : Claims) (now : Nat) : Prop :=
  cfg.refresh = 0 ∨ ∃ i, c.iat = some i ∧ now ≤ i + cfg.refresh

theorem cookie_iff (cfg : Cfg) (c : Claims) (now : Nat) :
    (recent cfg c now && cookieOk c) = true ↔ Spec.Recent cfg c now ∧ Spec.Complete c := by
  unfold recent cookieOk Spec.Recent Spec.Complete
  rw [Bool.and_eq_true, Bool.and_eq_true, Bool.and_eq_true, and_assoc]
  refine and_congr ?_ (and_congr ?_ (and_congr_left' ?_))
  · by_cases h : cfg.refresh = 0
    · simp [h]
    · cases c.iat <;> simp [h]
  · cases c.sub <;> simp [and_comm]
  · cases c.email <;> simp [and_comm]

/-- C63, C91: exactly which login requests are accepted, and which of them get a cookie. The stored identity is
the one the other provider has vouched for now, if it is for the same subject and email, or else the one
stored before. -/
theorem login_iff (cfg : Cfg) (s : State) (now t0 : Nat) (token : Option Claims) (r : AsrtReq) (c : Commit)
    (h : Nat) (k : Key) (out : Claims) (b : Bool) :
    (step cfg s (.assert now t0 token r c)).log = .login h k out r t0 now b :: s.log ↔
    ∃ u cl, r.data.typ = 1 ∧ r.data.up = true ∧ r.data.uv = true ∧ c = .ok ∧
      (∃ ch, Assoc.get s.challenges r.data.chal = some ch) ∧
      Spec.Known cfg (reread s) r h u k ∧
      ((token = some cl ∧ cl.sub = u.claims.sub ∧ cl.email = u.claims.email) ∨
        (cl = u.claims ∧ ∀ x, token = some x → ¬ (x.sub = u.claims.sub ∧ x.email = u.claims.email))) ∧
      out = { cl with passkey := some k.id } ∧
      (b = true ↔ Spec.Recent cfg out now ∧ Spec.Complete out) := by
  have nocons : ∀ (x : Event) (l : List Event), l ≠ x :: l := by
    intro x l he
    have := congrArg List.length he
    simp at this
  have hcl : ∀ (u : User) (cl : Claims), cl = refreshed u token ↔
      ((token = some cl ∧ cl.sub = u.claims.sub ∧ cl.email = u.claims.email) ∨
        (cl = u.claims ∧ ∀ x, token = some x → ¬ (x.sub = u.claims.sub ∧ x.email = u.claims.email))) := by
    intro u cl
    unfold refreshed
    cases token with
    | none => simp
    | some nc =>
      dsimp only
      by_cases hn : nc.sub = u.claims.sub ∧ nc.email = u.claims.email
      · rw [if_pos hn]
        constructor
        · rintro rfl; exact .inl ⟨rfl, hn⟩
        · rintro (⟨h1, -⟩ | ⟨-, h2⟩)
          · cases h1; rfl
          · exact absurd hn (h2 nc rfl)
      · rw [if_neg hn]
        constructor
        · rintro rfl; exact .inr ⟨rfl, fun x hx => by cases hx; exact hn⟩
        · rintro (⟨h1, h2⟩ | ⟨h1, -⟩)
          · cases h1; exact absurd h2 hn
          · exact h1
  constructor
  · intro hl
    dsimp only [step, assert] at hl
    split at hl
    · exact absurd hl (nocons _ _)
    rename_i h1
    split at hl
    · exact absurd hl (nocons _ _)
    rename_i h2
    split at hl
    · exact absurd hl (nocons _ _)
    rename_i h3
    split at hl
    · exact absurd hl (nocons _ _)
    rename_i ch hch
    split at hl
    · exact absurd hl (nocons _ _)
    split at hl
    · exact absurd hl (nocons _ _)
    rename_i h' u k' hk
    split at hl
    · rename_i hc
      simp only [List.cons.injEq, Event.login.injEq, and_true, true_and] at hl
      obtain ⟨rfl, rfl, rfl, rfl⟩ := hl
      exact ⟨u, refreshed u token, Decidable.not_not.1 h1, by simpa using h2, by simpa using h3, hc, ⟨ch, hch⟩,
        (asrtCheck_iff ..).1 hk, (hcl u _).1 rfl, rfl, cookie_iff cfg _ now⟩
    · exfalso
      unfold commit at hl
      split at hl
      · exact nocons _ _ hl
      · exact nocons _ _ hl
  · rintro ⟨u, cl, h1, h2, h3, rfl, ⟨ch, hch⟩, hk, hr, rfl, hb⟩
    rw [← hcl] at hr
    subst hr
    have hb' : b = (recent cfg { refreshed u token with passkey := some k.id } now &&
        cookieOk { refreshed u token with passkey := some k.id }) := by
      rw [Bool.eq_iff_iff, hb, cookie_iff]
    subst hb'
    dsimp only [step, assert]
    rw [if_neg (fun h => h h1), if_neg (by simp [h2]), if_neg (by simp [h3]), hch]
    dsimp only
    rw [if_neg (fun h => nomatch h), (asrtCheck_iff ..).2 hk]
    rfl

/-- C61 to C66: a request that cannot open the storage changes no account, in memory or on disk, adds no key and
logs nobody in. -/
theorem open_failure (cfg : Cfg) (s : State) (o : Op)
    (h : (∃ p n t c ho r, o = .attest p n t c ho r .openFails) ∨ (∃ n t tk r, o = .assert n t tk r .openFails) ∨
      ∃ n c ho i, o = .delete n c ho i .openFails) :
    (step cfg s o).db = s.db ∧ (step cfg s o).disk = s.disk ∧ (step cfg s o).log = s.log := by
  have hat : ∀ p n t c ho r, (attest cfg s p n t c ho r .openFails).db = s.db ∧
      (attest cfg s p n t c ho r .openFails).disk = s.disk ∧ (attest cfg s p n t c ho r .openFails).log = s.log := by
    intro p n t c ho r
    unfold attest
    dsimp only
    split
    · exact ⟨rfl, rfl, rfl⟩
    split
    · exact ⟨rfl, rfl, rfl⟩
    split
    · exact ⟨rfl, rfl, rfl⟩
    split
    · exact ⟨rfl, rfl, rfl⟩
    split
    · exact ⟨rfl, rfl, rfl⟩
    rw [if_pos rfl]
    exact ⟨rfl, rfl, rfl⟩
  rcases h with ⟨p, n, t, c, ho, r, rfl⟩ | ⟨n, t, tk, r, rfl⟩ | ⟨n, c, ho, i, rfl⟩
  · cases p with
    | first =>
      dsimp only [step]
      split
      · exact ⟨rfl, rfl, rfl⟩
      · exact hat ..
    | manage =>
      dsimp only [step]
      split
      · exact ⟨rfl, rfl, rfl⟩
      · exact hat ..
  · dsimp only [step, assert]
    split
    · exact ⟨rfl, rfl, rfl⟩
    split
    · exact ⟨rfl, rfl, rfl⟩
    split
    · exact ⟨rfl, rfl, rfl⟩
    split
    · exact ⟨rfl, rfl, rfl⟩
    rw [if_pos rfl]
    exact ⟨rfl, rfl, rfl⟩
  · dsimp only [step, delete]
    split
    · exact ⟨rfl, rfl, rfl⟩
    split
    · exact ⟨rfl, rfl, rfl⟩
    rw [if_pos rfl]
    exact ⟨rfl, rfl, rfl⟩

/-- Non-vacuity: the first login of the execution above. -/
example :
    (step Ex.cfg (run Ex.cfg (Ex.ops.take 7) init)
      (.assert 22 22 none ⟨Ex.data 1 2 Ex.origin, some 100, [], 7, 70⟩ .ok)).log =
    .login 100 ⟨7, 70, 9⟩ { Ex.alice 5 with passkey := some 7 } ⟨Ex.data 1 2 Ex.origin, some 100, [], 7, 70⟩ 22 22
      true :: (run Ex.cfg (Ex.ops.take 7) init).log := by
  decide +kernel

end Verif.Passkey
