import Verif.Lemmas.Pki

/-!
# C67 to C72: the certificate authority
-/

namespace Verif.Pki

theorem log_split_inv {cfg : Cfg} {ops : List Op} (hw : WF cfg ops init) {l1 l2 : List Event}
    {e : Event} (hl : (run cfg ops init).log = l1 ++ e :: l2) : Cond cfg e l2 :=
  logOk_split (hl ▸ (inv_run (inv_init cfg) hw).log)

/-! ## C67 -/

/-- C67: two different serial numbers that are not negative have different texts. The CA's own serial
numbers are random 128-bit numbers, hence not negative. -/
theorem serial_text_injective_partial (z z' : Int) (h : 0 ≤ z) (h' : 0 ≤ z')
    (ht : snText z = snText z') : z = z' := by
  have := snText_natAbs ht
  omega

example : snText 0x1234 = "12:34".toList ∧ snText 0x12340 = "01:23:40".toList := by decide +kernel

/-- C67 fails for negative numbers, which an OCSP request or a client certificate can contain: the
sign is dropped. -/
theorem serial_text_violated : ∃ z z' : Int, z ≠ z' ∧ snText z = snText z' :=
  ⟨5, -5, by decide, by decide +kernel⟩

/-- C67: revoking one certificate leaves every other issued certificate alone: whatever is stored
for another serial number before is stored for it afterwards. -/
theorem revoke_affects_one (s : State) (rid serial reason now : Nat) (c : Commit) (serial' : Nat)
    (hne : serial' ≠ serial) :
    findText (snText serial') (revoke s rid serial reason now c).disk.issued =
      findText (snText serial') s.disk.issued ∧
    (snText serial' ∈ (revoke s rid serial reason now c).db.revoked →
      snText serial' ∈ s.db.revoked ∨ snText serial' ∈ s.disk.revoked) := by
  have hn : snText (serial' : Int) ≠ snText serial := fun h => hne (snText_inj h)
  unfold revoke
  split
  · exact ⟨rfl, .inl⟩
  dsimp only
  cases hs : setRev (snText serial) ⟨trunc now, reason⟩ (reread s).issued with
  | none => exact ⟨rfl, fun h => (List.mem_append.1 h).symm⟩
  | some p =>
    obtain ⟨x, l⟩ := p
    have h3 := (setRev_some hs).2.2.1 (snText serial') hn
    have hr : snText (serial' : Int) ∈ snText (serial : Int) :: (reread s).revoked →
        snText serial' ∈ s.db.revoked ∨ snText serial' ∈ s.disk.revoked := by
      intro h
      rcases List.mem_cons.1 h with h | h
      · exact absurd h hn
      · exact (List.mem_append.1 h).symm
    dsimp only [commit]
    by_cases hc : c = .ok
    · rw [if_pos hc, if_pos hc]
      exact ⟨h3, hr⟩
    · rw [if_neg hc, if_neg hc]
      exact ⟨rfl, hr⟩

/-! ## C68 -/

/-- C68: after a successful revocation every handshake check finds the certificate revoked and every
OCSP answer for this CA says revoked, whatever happened in between. -/
theorem revocation_permanent (cfg : Cfg) (ops : List Op) (hw : WF cfg ops init)
    (l1 l2 : List Event) (e : Event) (hl : (run cfg ops init).log = l1 ++ e :: l2)
    (rid serial na t : Nat) (hr : Event.revoked rid serial na t ∈ l2) :
    (∀ b, e = .check serial b → b = true) ∧
    (∀ st, e = .ocsp true serial st → st = .revoked) := by
  have hc := log_split_inv hw hl
  constructor
  · intro b he
    subst he
    exact hc.1 ⟨rid, na, t, by simpa using hr⟩
  · intro st he
    subst he
    exact hc.2.2 rfl ⟨rid, na, t, by simpa using hr⟩

/-- C68, converse: a handshake check finds a certificate revoked only if somebody entitled to it
asked for its revocation. -/
theorem check_revoked_only (cfg : Cfg) (ops : List Op) (hw : WF cfg ops init)
    (l1 l2 : List Event) (z : Int)
    (hl : (run cfg ops init).log = l1 ++ .check z true :: l2) :
    ∃ rid email admin c t, Event.asked rid email admin c t ∈ l2 ∧ c.serial = z.natAbs :=
  (log_split_inv hw hl).2 rfl

/-! ## C69 -/

/-- C69, what holds: a served list is at most 30 minutes past its `NextUpdate`, and it lists every
unexpired certificate revoked before, except that a revocation can be missing if the certificate was
revoked in the very second in which the list was made. Missing: the list should not be past its
`NextUpdate`, and there should be no exception. -/
theorem crl_complete_partial (cfg : Cfg) (ops : List Op) (hw : WF cfg ops init)
    (l1 l2 : List Event) (x : Crl) (t : Nat)
    (hl : (run cfg ops init).log = l1 ++ .crl x t :: l2) :
    x.thisUpd ≤ t ∧ x.nextUpd = x.thisUpd + 3600000 ∧ t < x.nextUpd + 1800000 ∧
    ∀ rid serial na t', Event.revoked rid serial na t' ∈ l2 →
      (∃ r, (serial, r) ∈ x.entries) ∨ na < t ∨
        ∃ rid' na' t'', Event.revoked rid' serial na' t'' ∈ l2 ∧
          x.thisUpd ≤ t'' ∧ t'' < x.thisUpd + 1000 := by
  obtain ⟨h1, h2, h3, h4, -⟩ := log_split_inv hw hl
  refine ⟨h1, h2, h3, ?_⟩
  intro rid serial na t' h
  rcases h4 rid serial na t' h with h | h | ⟨rid', na', t'', h, he⟩
  · exact .inl h
  · exact .inr (.inl h)
  · refine .inr (.inr ⟨rid', na', t'', h, ?_⟩)
    unfold trunc at he
    omega

/-- C69: a list has only serial numbers of certificates whose revocation was asked for by somebody
entitled to it. -/
theorem crl_sound (cfg : Cfg) (ops : List Op) (hw : WF cfg ops init)
    (l1 l2 : List Event) (x : Crl) (t : Nat)
    (hl : (run cfg ops init).log = l1 ++ .crl x t :: l2) (serial : Nat) (r : Rev)
    (hr : (serial, r) ∈ x.entries) :
    ∃ rid email admin c t', Event.asked rid email admin c t' ∈ l2 ∧ c.serial = serial :=
  (log_split_inv hw hl).2.2.2.2.1 serial r hr

/-- C69: numbers of served lists strictly increase: a list served later is either the very same
list or has a greater number. -/
theorem crl_numbers (cfg : Cfg) (ops : List Op) (hw : WF cfg ops init)
    (l1 l2 : List Event) (x : Crl) (t : Nat)
    (hl : (run cfg ops init).log = l1 ++ .crl x t :: l2) (y : Crl) (t' : Nat)
    (hy : Event.crl y t' ∈ l2) : y = x ∨ y.number < x.number :=
  (log_split_inv hw hl).2.2.2.2.2 y t' hy

/-! ## C70 -/

/-- C70: a certificate made for a user has that user's email as its only email name, no URI and no IP
name, a common name that is the email or the email, two colons and more, is no CA certificate, and
if it is for client authentication it has no DNS name either. -/
theorem issued_identity (cfg : Cfg) (ops : List Op) (hw : WF cfg ops init)
    (c : Cert) (e : Str) (h : Event.signed c (some e) ∈ (run cfg ops init).log) :
    c.emails = [e] ∧ c.uris = [] ∧ c.ips = [] ∧
    (c.cn = e ∨ ∃ x, x ≠ [] ∧ c.cn = e ++ ("::".toList ++ x)) ∧ c.isCA = false ∧
    (c.clientAuth = true → c.dns = []) := by
  obtain ⟨l1, l2, hl⟩ := List.append_of_mem h
  exact (log_split_inv hw hl).2 e rfl

theorem cn_prefix {e x : Str} (he : ':' ∉ e) :
    (e ++ ("::".toList ++ x)).takeWhile (fun ch => decide (ch ≠ ':')) = e := by
  induction e with
  | nil => rfl
  | cons a e ih =>
    have ha : a ≠ ':' := fun h => he (h ▸ List.mem_cons_self)
    rw [List.cons_append, List.takeWhile_cons_of_pos (by simpa using ha),
      ih (fun h => he (List.mem_cons_of_mem _ h))]

theorem cn_self {e : Str} (he : ':' ∉ e) : e.takeWhile (fun ch => decide (ch ≠ ':')) = e := by
  induction e with
  | nil => rfl
  | cons a e ih =>
    have ha : a ≠ ':' := fun h => he (h ▸ List.mem_cons_self)
    rw [List.takeWhile_cons_of_pos (by simpa using ha), ih (fun h => he (List.mem_cons_of_mem _ h))]

/-- C70: no user can get a certificate with the common name of another user's certificate, if no
email contains a colon. -/
theorem issued_cn_owner (cfg : Cfg) (ops : List Op) (hw : WF cfg ops init)
    (c c' : Cert) (e e' : Str) (h : Event.signed c (some e) ∈ (run cfg ops init).log)
    (h' : Event.signed c' (some e') ∈ (run cfg ops init).log) (he : ':' ∉ e) (he' : ':' ∉ e')
    (hcn : c.cn = c'.cn) : e = e' := by
  have aux : ∀ {c : Cert} {e : Str}, ':' ∉ e →
      (c.cn = e ∨ ∃ x, x ≠ [] ∧ c.cn = e ++ ("::".toList ++ x)) →
      c.cn.takeWhile (fun ch => decide (ch ≠ ':')) = e := by
    intro c e he h
    rcases h with h | ⟨x, -, h⟩
    · rw [h]
      exact cn_self he
    · rw [h]
      exact cn_prefix he
  have a := aux he (issued_identity cfg ops hw c e h).2.2.2.1
  have b := aux he' (issued_identity cfg ops hw c' e' h').2.2.2.1
  rw [← a, ← b, hcn]

/-! ## C71 -/

/-- C71, what holds: a revocation succeeds only after a request whose user owns the certificate or is
a configured admin, made when the certificate was stored, unexpired and not revoked. Missing: it may
have been revoked between the request's tests and the revocation. -/
theorem revoke_authorized_partial (cfg : Cfg) (ops : List Op) (hw : WF cfg ops init)
    (l1 l2 : List Event) (rid serial na t : Nat)
    (hl : (run cfg ops init).log = l1 ++ .revoked rid serial na t :: l2) :
    ∃ email admin c t0 l3 l4, l2 = l3 ++ .asked rid email admin c t0 :: l4 ∧ c.serial = serial ∧
      (email ∈ c.emails ∨ (admin = true ∧ email ∈ cfg.admins)) ∧
      t0 ≤ c.notAfter ∧ c.rev = none ∧ (∃ user, Event.signed c user ∈ l4) ∧
      ∀ rid' na' t', Event.revoked rid' serial na' t' ∉ l4 := by
  obtain ⟨email, admin, c, t0, hm, hs⟩ := log_split_inv hw hl
  obtain ⟨l3, l4, h⟩ := List.append_of_mem hm
  have hl' : (run cfg ops init).log =
      (l1 ++ .revoked rid serial na t :: l3) ++ .asked rid email admin c t0 :: l4 := by
    rw [hl, h]
    simp
  obtain ⟨h1, h2, h3, h4, h5⟩ := log_split_inv hw hl'
  refine ⟨email, admin, c, t0, l3, l4, h, hs, h4, h3, h2, h1, ?_⟩
  intro rid' na' t' hr
  exact h5 ⟨rid', na', t', hs ▸ hr⟩

/-! ## C72 -/

/-- C72 for serial numbers that are not negative: the responder answers good only if it signed a
certificate with this serial number and did not revoke it. -/
theorem ocsp_good_partial (cfg : Cfg) (ops : List Op) (hw : WF cfg ops init)
    (l1 l2 : List Event) (ok : Bool) (z : Int) (hz : 0 ≤ z)
    (hl : (run cfg ops init).log = l1 ++ .ocsp ok z .good :: l2) :
    ok = true ∧ ∃ c user, Event.signed c user ∈ l2 ∧ (c.serial : Int) = z ∧
      ∀ rid na t, Event.revoked rid c.serial na t ∉ l2 := by
  obtain ⟨h1, h2, -⟩ := log_split_inv hw hl
  obtain ⟨c, u, h3, h4, h5⟩ := h2 rfl
  refine ⟨?_, c, u, h3, by omega, ?_⟩
  · cases ok with
    | true => rfl
    | false => cases h1 rfl
  · intro rid na t h
    exact h5 ⟨rid, na, t, h⟩

/-- C72: for another issuer the answer is unknown. -/
theorem ocsp_other_issuer (cfg : Cfg) (ops : List Op) (hw : WF cfg ops init)
    (l1 l2 : List Event) (z : Int) (st : Status)
    (hl : (run cfg ops init).log = l1 ++ .ocsp false z st :: l2) : st = .unknown :=
  (log_split_inv hw hl).1 rfl

/-! ## Examples and violations -/

namespace Ex

def alice : Str := "alice@example.com".toList
def bob : Str := "bob@example.com".toList
def root : Str := "root@example.com".toList
def cfg : Cfg := ⟨[root]⟩
def csr (cn : String) : Csr := ⟨cn.toList, [root], [], ["spiffe://x".toList], ["10.0.0.1".toList]⟩

/-- Two users get certificates; the first's certificate is revoked by its owner, the second's not by
the first user but by an admin; lists, OCSP answers and checks in between. -/
def ops : List Op :=
  [.delegate "CA".toList 1 1000 lifetime .ok,
   .request alice (csr "") 2000 2000 .ok,
   .request bob (csr "laptop") 3000 3000 .ok,
   .crl 4000 .ok,
   .ocsp true 2000,
   .revokeCheck 1 alice false (snText 2000) 5000,
   .revokeCheck 2 alice false (snText 3000) 5000,
   .revokeDo 1 6500 .ok,
   .revokeDo 2 6500 .ok,
   .crl 7000 .fails,
   .crl 8000 .ok,
   .crl 9000 .ok,
   .check 2000,
   .restart,
   .check 2000,
   .ocsp true 2000,
   .ocsp true 3000,
   .ocsp false 3000,
   .revokeCheck 3 root true (snText 3000) 10000,
   .revokeDo 3 10000 .fails,
   .check 3000,
   .ocsp true 4000]

theorem wf : WF cfg ops init := by decide +kernel

/-- What an event says, for the examples. -/
inductive View where
  | signed (serial : Nat) (cn : Str)
  | asked (serial : Nat)
  | revoked (serial : Nat)
  | crl (number : Nat) (serials : List Nat)
  | ocsp (z : Int) (st : Status)
  | check (z : Int) (b : Bool)
  deriving DecidableEq

def view : Event → View
  | .signed c _ => .signed c.serial c.cn
  | .asked _ _ _ c _ => .asked c.serial
  | .revoked _ serial _ _ => .revoked serial
  | .crl l _ => .crl l.number (l.entries.map Prod.fst)
  | .ocsp _ z st => .ocsp z st
  | .check z b => .check z b

/-- The log, oldest first. -/
example : (run cfg ops init).log.reverse.map view =
  [.signed 1 "CA".toList, .signed 2000 alice, .signed 3000 "bob@example.com::laptop".toList,
   .crl 1 [], .ocsp 2000 .good, .asked 2000, .revoked 2000,
   .crl 2 [2000], .crl 2 [2000], .check 2000 true, .check 2000 true,
   .ocsp 2000 .revoked, .ocsp 3000 .good, .ocsp 3000 .unknown, .asked 3000, .check 3000 true,
   .ocsp 4000 .revoked] := by decide +kernel

end Ex

open Ex in
/-- C69 fails: a list is served although the time is past its `NextUpdate`. -/
theorem crl_current_violated : ∃ cfg ops x t, WF cfg ops init ∧
    Event.crl x t ∈ (run cfg ops init).log ∧ x.nextUpd < t :=
  ⟨cfg, [.crl 1000 .ok, .crl 5000000 .ok], ⟨1, 1000, 3601000, []⟩, 5000000, by decide +kernel⟩

open Ex in
/-- C69 fails: a certificate is revoked in the second in which the list was made; the list is served
again much later and does not contain it. -/
theorem crl_complete_violated : ∃ cfg ops x t l2, WF cfg ops init ∧
    (run cfg ops init).log = .crl x t :: l2 ∧
    ∃ rid serial na t', Event.revoked rid serial na t' ∈ l2 ∧ t < na ∧ t' + 3000000 < t ∧
      ∀ p ∈ x.entries, p.1 ≠ serial :=
  ⟨cfg, [.request alice (csr "") 2000 1000 .ok, .revokeCheck 1 alice false (snText 2000) 5000,
      .crl 5100 .ok, .revokeDo 1 5900 .ok, .crl 5000000 .ok], ⟨1, 5000, 3605000, []⟩, 5000000,
    _, by decide +kernel, rfl, 1, 2000, 315360001000, 5900, by decide +kernel⟩

open Ex in
/-- C71 fails: two requests pass the tests before either revokes, and both revoke. -/
theorem revoke_twice_violated : ∃ cfg ops l2 rid rid' serial na t t', WF cfg ops init ∧
    (run cfg ops init).log = .revoked rid serial na t :: l2 ∧
    Event.revoked rid' serial na t' ∈ l2 :=
  ⟨cfg, [.request alice (csr "") 2000 1000 .ok, .revokeCheck 1 alice false (snText 2000) 5000,
      .revokeCheck 2 alice false (snText 2000) 5000, .revokeDo 1 6000 .ok, .revokeDo 2 7000 .ok],
    _, 2, 1, 2000, 315360001000, 7000, 6000, by decide +kernel, rfl, by decide +kernel⟩

open Ex in
/-- C72 fails for negative serial numbers: the responder answers good for `-2000`, which it never
signed. -/
theorem ocsp_negative_violated : ∃ cfg ops l2, WF cfg ops init ∧
    (run cfg ops init).log = .ocsp true (-2000) .good :: l2 ∧
    ∀ e ∈ l2, ∀ c u, e = .signed c u → (c.serial : Int) ≠ -2000 := by
  refine ⟨cfg, [.request alice (csr "") 2000 1000 .ok, .ocsp true (-2000)], _, by decide +kernel,
    rfl, ?_⟩
  intro e _ c _ _ h
  omega

open Ex in
/-- Beside C70: DNS names are copied from the request, so any user gets a server certificate for any
DNS name. -/
theorem issued_dns_verbatim : ∃ cfg ops c, WF cfg ops init ∧
    Event.signed c (some alice) ∈ (run cfg ops init).log ∧ c.dns = ["bank.example".toList] ∧
    c.serverAuth = true :=
  ⟨cfg, [.request alice ⟨[], [], ["bank.example".toList], [], []⟩ 7 1000 .ok],
    issueCert (userCsr alice ⟨[], [], ["bank.example".toList], [], []⟩) 7 1000, by decide +kernel⟩

/-! ## What is in a certificate, and what failures change -/

/-- The certificate that an operation asks for, field by field: ten years to the second for users, for
servers if it has DNS names and for clients if not, never a CA; for the CA itself and its delegates the
opposite. -/
def Spec.Made (c : Cert) (u : Option Str) : Op → Prop
  | .request email inp sn now k =>
    u = some email ∧ (k = .ok ∨ k = .fails) ∧ c.serial = sn ∧ c.emails = [email] ∧ c.dns = inp.dns ∧
    (c.serverAuth = true ↔ inp.dns ≠ []) ∧ (c.clientAuth = true ↔ inp.dns = []) ∧ c.isCA = false ∧
    c.notAfter ≤ now + 10 * 365 * 24 * 3600 * 1000 ∧ now + 10 * 365 * 24 * 3600 * 1000 < c.notAfter + 1000
  | .delegate cn sn now life k =>
    u = none ∧ (k = .ok ∨ k = .fails) ∧ c.serial = sn ∧ c.cn = cn ∧ c.emails = [] ∧ c.dns = [] ∧
    c.isCA = true ∧ c.serverAuth = false ∧ c.clientAuth = false ∧
    c.notAfter ≤ now + life ∧ now + life < c.notAfter + 1000
  | _ => False

theorem trunc_bounds (t : Nat) : trunc t ≤ t ∧ t < trunc t + 1000 := by
  unfold trunc
  omega

theorem made_request (email : Str) (inp : Csr) (sn now : Nat) (k : Commit) (hk : k = .ok ∨ k = .fails) :
    Spec.Made (issueCert (userCsr email inp) sn now) (some email) (.request email inp sn now k) := by
  have hb := trunc_bounds (now + lifetime)
  refine ⟨rfl, hk, rfl, rfl, rfl, ?_, ?_, rfl, ?_, ?_⟩
  · show (decide (inp.dns.length > 0) || decide (([] : List Str).length > 0)) = true ↔ _
    cases inp.dns <;> simp
  · show (!(decide (inp.dns.length > 0) || decide (([] : List Str).length > 0))) = true ↔ _
    cases inp.dns <;> simp
  · have : lifetime = 10 * 365 * 24 * 3600 * 1000 := by decide
    rw [this] at hb
    show trunc (now + lifetime) ≤ _
    rw [this]; exact hb.1
  · have : lifetime = 10 * 365 * 24 * 3600 * 1000 := by decide
    show _ < trunc (now + lifetime) + 1000
    rw [this] at hb ⊢; exact hb.2

theorem sign_log (s : State) (cert : Cert) (u : Option Str) (k : Commit) :
    (sign s cert u k).log = if k = .ok ∨ k = .fails then .signed cert u :: s.log else s.log := by
  unfold sign commit
  cases k <;> simp

/-- What one step adds to the certificates signed. -/
theorem signed_step (cfg : Cfg) (s : State) (o : Op) (c : Cert) (u : Option Str)
    (h : Event.signed c u ∈ (step cfg s o).log) : Event.signed c u ∈ s.log ∨ Spec.Made c u o := by
  unfold step at h
  generalize hs : ({ s with clock := o.now s } : State) = s' at h
  have hl : s'.log = s.log := by rw [← hs]
  rw [← hl]
  clear hs hl s
  cases o with
  | request email inp sn now k =>
    dsimp only [act] at h
    rw [sign_log] at h
    split at h
    · rename_i hk
      rcases List.mem_cons.1 h with h | h
      · cases h; exact .inr (made_request email inp sn now k hk)
      · exact .inl h
    · exact .inl h
  | delegate cn sn now life k =>
    dsimp only [act] at h
    rw [sign_log] at h
    split at h
    · rename_i hk
      rcases List.mem_cons.1 h with h | h
      · cases h
        have hb := trunc_bounds (now + life)
        exact .inr ⟨rfl, hk, rfl, rfl, rfl, rfl, rfl, rfl, rfl, hb.1, hb.2⟩
      · exact .inl h
    · exact .inl h
  | revokeCheck rid email a sn now =>
    left
    dsimp only [act, revokeCheck] at h
    split at h
    · exact h
    · split at h
      · exact h
      · split at h
        · exact h
        · rcases List.mem_cons.1 h with h | h
          · cases h
          · exact h
  | revokeDo rid now k =>
    left
    dsimp only [act, revokeDo] at h
    split at h
    · exact h
    · dsimp only [revoke] at h
      split at h
      · exact h
      · split at h
        · exact h
        · split at h
          · rcases List.mem_cons.1 h with h | h
            · cases h
            · exact h
          · unfold commit at h; split at h <;> exact h
  | crl now k =>
    left
    dsimp only [act, serveCrl] at h
    split at h
    · exact h
    · split at h
      · rcases List.mem_cons.1 h with h | h
        · cases h
        · exact h
      · split at h
        · exact h
        · split at h
          · rcases List.mem_cons.1 h with h | h
            · cases h
            · exact h
          · unfold commit at h; split at h <;> exact h
  | ocsp ok z =>
    left
    rcases List.mem_cons.1 h with h | h
    · cases h
    · exact h
  | check z =>
    left
    rcases List.mem_cons.1 h with h | h
    · cases h
    · exact h
  | reload => exact .inl h
  | restart => exact .inl h

theorem signed_run (cfg : Cfg) (c : Cert) (u : Option Str) (ops : List Op) : ∀ s : State,
    Event.signed c u ∈ (run cfg ops s).log → Event.signed c u ∈ s.log ∨ ∃ o ∈ ops, Spec.Made c u o := by
  induction ops with
  | nil => intro s h; exact .inl h
  | cons o ops ih =>
    intro s h
    rcases ih _ h with h | ⟨o', ho, hm⟩
    · rcases signed_step cfg s o c u h with h | h
      · exact .inl h
      · exact .inr ⟨o, List.mem_cons_self, h⟩
    · exact .inr ⟨o', List.mem_cons_of_mem _ ho, hm⟩

/-- C70: every certificate ever signed is what one of the requests, or the CA itself, asked for; one for a
user is for servers exactly if it has DNS names, for clients exactly if not, and never a CA; and it is good
for ten years. -/
theorem issued_usage (cfg : Cfg) (ops : List Op) (c : Cert) (u : Option Str)
    (h : Event.signed c u ∈ (run cfg ops init).log) : ∃ o ∈ ops, Spec.Made c u o := by
  rcases signed_run cfg c u ops init h with h | h
  · cases h
  · exact h

/-- C70: a request whose storage works is answered with a certificate, which is on disk afterwards. -/
theorem request_granted (cfg : Cfg) (s : State) (email : Str) (inp : Csr) (sn now : Nat) :
    ∃ c, (step cfg s (.request email inp sn now .ok)).log = .signed c (some email) :: s.log ∧
      Spec.Made c (some email) (.request email inp sn now .ok) ∧
      c ∈ (step cfg s (.request email inp sn now .ok)).disk.issued := by
  refine ⟨_, ?_, made_request email inp sn now .ok (.inl rfl), ?_⟩
  · show (sign _ _ _ _).log = _
    rw [sign_log, if_pos (.inl rfl)]
  · dsimp only [step, act, sign, commit]
    simp

/-- What the storage does to an operation. -/
def Spec.storage : Op → Option Commit
  | .request _ _ _ _ k => some k
  | .delegate _ _ _ _ k => some k
  | .revokeDo _ _ k => some k
  | .crl _ k => some k
  | _ => none

/-- C70, C71: an operation that cannot open the storage changes nothing, neither in memory nor on disk, and
reports nothing. -/
theorem open_failure (cfg : Cfg) (s : State) (o : Op) (h : Spec.storage o = some .openFails) :
    (step cfg s o).db = s.db ∧ (step cfg s o).disk = s.disk ∧ (step cfg s o).log = s.log := by
  cases o <;> simp only [Spec.storage, Option.some.injEq, reduceCtorEq] at h <;> subst h
  · exact ⟨rfl, rfl, rfl⟩
  · exact ⟨rfl, rfl, rfl⟩
  · rename_i rid now
    dsimp only [step, act, revokeDo]
    split
    · exact ⟨rfl, rfl, rfl⟩
    · exact ⟨rfl, rfl, rfl⟩
  · exact ⟨rfl, rfl, rfl⟩

/-- C70: a certificate that cannot be made is not stored, in memory or on disk, nor reported. -/
theorem sign_failure (cfg : Cfg) (s : State) (o : Op)
    (h : (∃ e i n t, o = .request e i n t .buildFails) ∨ ∃ c n t l, o = .delegate c n t l .buildFails) :
    (step cfg s o).db.issued = s.disk.issued ∧ (step cfg s o).disk = s.disk ∧
    (step cfg s o).log = s.log := by
  rcases h with ⟨_, _, _, _, rfl⟩ | ⟨_, _, _, _, rfl⟩ <;> exact ⟨rfl, rfl, rfl⟩

/-- The revocations of a state and the lists it has signed give no reason. -/
structure NoReason (s : State) : Prop where
  db : ∀ c ∈ s.db.issued, ∀ r, c.rev = some r → r.reason = 0
  disk : ∀ c ∈ s.disk.issued, ∀ r, c.rev = some r → r.reason = 0
  dlists : ∀ l ∈ s.disk.lists, ∀ p ∈ l.entries, p.2.reason = 0
  served : ∀ l t, Event.crl l t ∈ s.log → ∀ p ∈ l.entries, p.2.reason = 0

theorem noReason_sign {s : State} (h : NoReason s) (c : Cert) (u : Option Str) (k : Commit)
    (hc : c.rev = none) : NoReason (sign s c u k) := by
  have hi : ∀ x ∈ s.disk.issued ++ [c], ∀ r, x.rev = some r → r.reason = 0 := by
    intro x hx r hr
    rcases List.mem_append.1 hx with hx | hx
    · exact h.disk x hx r hr
    · rw [List.mem_singleton.1 hx, hc] at hr; cases hr
  have hs : ∀ l t, Event.crl l t ∈ Event.signed c u :: s.log → ∀ p ∈ l.entries, p.2.reason = 0 := by
    intro l t hm
    rcases List.mem_cons.1 hm with hm | hm
    · cases hm
    · exact h.served l t hm
  unfold sign
  split
  · exact h
  · split
    · exact ⟨h.disk, h.disk, h.dlists, h.served⟩
    · dsimp only [commit]
      split
      · exact ⟨hi, hi, h.dlists, hs⟩
      · exact ⟨hi, h.disk, h.dlists, hs⟩

theorem noReason_revoke {s : State} (h : NoReason s) (rid serial now : Nat) (k : Commit) :
    NoReason (revoke s rid serial 0 now k) := by
  unfold revoke
  split
  · exact h
  · dsimp only
    split
    · exact ⟨h.disk, h.disk, h.dlists, h.served⟩
    · rename_i x l hx
      have hi : ∀ y ∈ l, ∀ r, y.rev = some r → r.reason = 0 := by
        intro y hy r hr
        rcases (setRev_some hx).2.2.2 y hy with hy | rfl
        · exact h.disk y hy r hr
        · cases hr; rfl
      split
      · rename_i hk
        subst hk
        refine ⟨hi, hi, h.dlists, ?_⟩
        intro l' t hm
        rcases List.mem_cons.1 hm with hm | hm
        · cases hm
        · exact h.served l' t hm
      · unfold commit
        split
        · exact ⟨hi, hi, h.dlists, h.served⟩
        · exact ⟨hi, h.disk, h.dlists, h.served⟩

theorem noReason_crl {s : State} (h : NoReason s) (now : Nat) (k : Commit) :
    NoReason (serveCrl s now k) := by
  have hlog : ∀ l, (∀ p ∈ l.entries, p.2.reason = 0) → ∀ l' t, Event.crl l' t ∈ Event.crl l now :: s.log →
      ∀ p ∈ l'.entries, p.2.reason = 0 := by
    intro l hl l' t hm
    rcases List.mem_cons.1 hm with hm | hm
    · cases hm; exact hl
    · exact h.served l' t hm
  unfold serveCrl
  split
  · exact h
  · dsimp only
    split
    · rename_i l hl
      refine ⟨h.disk, h.disk, h.dlists, hlog l (h.dlists l ?_)⟩
      unfold reuse at hl
      split at hl
      · cases hl
      · rename_i l' hl'
        split at hl
        · cases hl; exact List.mem_of_getLast? hl'
        · cases hl
    · split
      · exact ⟨h.disk, h.disk, h.dlists, h.served⟩
      · have hn : ∀ p ∈ (newCrl (reread s) now).entries, p.2.reason = 0 := by
          intro p hp
          dsimp only [newCrl, entries] at hp
          obtain ⟨c, hc, he⟩ := List.mem_filterMap.1 hp
          split at he
          · cases he
          · rename_i r hr
            split at he
            · cases he
            · cases he; exact h.disk c hc r hr
        generalize newCrl (reread s) now = nc at hn ⊢
        have hls : ∀ n, ∀ l ∈ (s.disk.lists ++ [nc]).drop n, ∀ p ∈ l.entries, p.2.reason = 0 := by
          intro n l hl
          rcases List.mem_append.1 (List.mem_of_mem_drop hl) with hl | hl
          · exact h.dlists l hl
          · rw [List.mem_singleton.1 hl]; exact hn
        split
        · rename_i hk
          subst hk
          unfold commit
          rw [if_pos rfl]
          rw [show (reread s).lists = s.disk.lists from rfl]
          generalize (s.disk.lists ++ [nc]).length - 128 = n
          exact ⟨h.disk, h.disk, hls n, hlog _ hn⟩
        · rename_i hk
          unfold commit
          rw [if_neg hk]
          exact ⟨h.disk, h.disk, h.dlists, h.served⟩

theorem noReason_step (cfg : Cfg) {s : State} (h : NoReason s) (o : Op) : NoReason (step cfg s o) := by
  have h' : NoReason { s with clock := o.now s } := ⟨h.db, h.disk, h.dlists, h.served⟩
  have hev : ∀ e : Event, (∀ l t, e ≠ .crl l t) → NoReason { s with clock := o.now s, log := e :: s.log } := by
    intro e he
    refine ⟨h.db, h.disk, h.dlists, ?_⟩
    intro l t hm
    rcases List.mem_cons.1 hm with hm | hm
    · exact absurd hm.symm (he l t)
    · exact h.served l t hm
  unfold step
  cases o with
  | request email inp sn now k => exact noReason_sign h' _ _ _ rfl
  | delegate cn sn now life k => exact noReason_sign h' _ _ _ rfl
  | revokeCheck rid email a sn now =>
    dsimp only [act, revokeCheck]
    split
    · exact h'
    · split
      · exact h'
      · split
        · exact h'
        · rename_i c _ _ _
          have := hev (.asked rid email (a && decide (email ∈ cfg.admins)) c now) (fun _ _ e => nomatch e)
          exact ⟨this.db, this.disk, this.dlists, this.served⟩
  | revokeDo rid now k =>
    dsimp only [act, revokeDo]
    split
    · exact h'
    · refine noReason_revoke ?_ _ _ _ _
      exact ⟨h'.db, h'.disk, h'.dlists, h'.served⟩
  | crl now k => exact noReason_crl h' now k
  | ocsp ok z => exact hev _ (fun _ _ e => nomatch e)
  | check z => exact hev _ (fun _ _ e => nomatch e)
  | reload => exact ⟨h.disk, h.disk, h.dlists, h.served⟩
  | restart => exact ⟨h.disk, h.disk, h.dlists, h.served⟩

theorem noReason_run (cfg : Cfg) (ops : List Op) : ∀ {s : State}, NoReason s → NoReason (run cfg ops s) := by
  induction ops with
  | nil => intro s h; exact h
  | cons o ops ih => intro s h; exact ih (noReason_step cfg h o)

/-- C69: no list ever served gives a reason for a revocation (the page offers none). -/
theorem crl_no_reason (cfg : Cfg) (ops : List Op) (l : Crl) (t : Nat)
    (h : Event.crl l t ∈ (run cfg ops init).log) (p : Nat × Rev) (hp : p ∈ l.entries) : p.2.reason = 0 := by
  have hi : NoReason init := ⟨fun _ h => (nomatch h), fun _ h => (nomatch h), fun _ h => (nomatch h),
    fun _ _ h => (nomatch h)⟩
  exact (noReason_run cfg ops hi).served l t h p hp

/-- Non-vacuity: in the execution above a list with an entry is served, and a request fails to be stored. -/
example : (∃ l t p, Event.crl l t ∈ (run Ex.cfg Ex.ops init).log ∧ p ∈ l.entries) ∧
    Spec.storage (.request Ex.alice (Ex.csr "") 2000 2000 .openFails) = some .openFails ∧
    ∃ c, Event.signed c (some Ex.bob) ∈ (run Ex.cfg Ex.ops init).log :=
  ⟨⟨⟨2, 8000, 3608000, [(2000, ⟨6000, 0⟩)]⟩, 8000, (2000, ⟨6000, 0⟩), by decide +kernel⟩, rfl,
    issueCert (userCsr Ex.bob (Ex.csr "laptop")) 3000 3000, by decide +kernel⟩

end Verif.Pki
