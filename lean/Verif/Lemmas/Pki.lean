import Verif.Model.Pki

/-! Serial numbers and invariants of the certificate authority. -/

namespace Verif.Pki

/-! ## Serial numbers -/

def beVal (l : List Nat) : Nat := l.foldl (fun n b => n * 256 + b) 0

theorem beVal_snoc (l : List Nat) (b : Nat) : beVal (l ++ [b]) = beVal l * 256 + b := by
  unfold beVal
  rw [List.foldl_append]
  rfl

theorem natBytesF_spec : ∀ (f n : Nat), n ≤ f →
    beVal (natBytesF f n) = n ∧ ∀ b ∈ natBytesF f n, b < 256 := by
  intro f
  induction f with
  | zero =>
    intro n h
    obtain rfl : n = 0 := by omega
    exact ⟨rfl, fun b hb => by cases hb⟩
  | succ f ih =>
    intro n h
    unfold natBytesF
    split
    · rename_i hn
      subst hn
      exact ⟨rfl, fun b hb => by cases hb⟩
    · have hlt : n / 256 ≤ f := by omega
      obtain ⟨h1, h2⟩ := ih (n / 256) hlt
      constructor
      · rw [beVal_snoc, h1]
        omega
      · intro b hb
        rcases List.mem_append.1 hb with hb | hb
        · exact h2 b hb
        · rw [List.mem_singleton.1 hb]
          omega

theorem hexDigit_inj : ∀ a b : Fin 16, hexDigit a = hexDigit b → a = b := by decide

theorem hexDigit_inj' {a b : Nat} (ha : a < 16) (hb : b < 16) (h : hexDigit a = hexDigit b) :
    a = b := congrArg Fin.val (hexDigit_inj ⟨a, ha⟩ ⟨b, hb⟩ h)

theorem hex2_inj {a b : Nat} (ha : a < 256) (hb : b < 256) (h : hex2 a = hex2 b) : a = b := by
  unfold hex2 at h
  simp only [List.cons.injEq, and_true] at h
  have h1 := hexDigit_inj' (by omega) (by omega) h.1
  have h2 := hexDigit_inj' (by omega) (by omega) h.2
  omega

theorem bytesToHex_cons2 (b c : Nat) (t : List Nat) :
    bytesToHex (b :: c :: t) = hex2 b ++ ':' :: bytesToHex (c :: t) := rfl

theorem bytesToHex_inj : ∀ (l l' : List Nat), (∀ b ∈ l, b < 256) → (∀ b ∈ l', b < 256) →
    bytesToHex l = bytesToHex l' → l = l'
  | [], [], _, _, _ => rfl
  | [], [_], _, _, h => by cases h
  | [], _ :: _ :: _, _, _, h => by cases h
  | [_], [], _, _, h => by cases h
  | _ :: _ :: _, [], _, _, h => by cases h
  | [a], [b], ha, hb, h => by
    rw [hex2_inj (ha a (by simp)) (hb b (by simp)) h]
  | [a], b :: c :: t, _, _, h => by
    have := congrArg List.length h
    simp [bytesToHex, hex2] at this
  | b :: c :: t, [a], _, _, h => by
    have := congrArg List.length h
    simp [bytesToHex, hex2] at this
  | a :: b :: t, a' :: b' :: t', ha, hb, h => by
    rw [bytesToHex_cons2, bytesToHex_cons2] at h
    obtain ⟨h1, h2⟩ := List.append_inj h rfl
    simp only [List.cons.injEq, true_and] at h2
    have ih := bytesToHex_inj (b :: t) (b' :: t')
      (fun x hx => ha x (List.mem_cons_of_mem _ hx)) (fun x hx => hb x (List.mem_cons_of_mem _ hx)) h2
    rw [hex2_inj (ha a (by simp)) (hb a' (by simp)) h1, ih]

theorem snText_natAbs {z z' : Int} (h : snText z = snText z') : z.natAbs = z'.natAbs := by
  unfold snText at h
  obtain ⟨h1, h2⟩ := natBytesF_spec z.natAbs z.natAbs (Nat.le_refl _)
  obtain ⟨h3, h4⟩ := natBytesF_spec z'.natAbs z'.natAbs (Nat.le_refl _)
  have := bytesToHex_inj _ _ h2 h4 h
  have hv := congrArg beVal this
  rw [h1, h3] at hv
  exact hv

theorem snText_inj {a b : Nat} (h : snText (a : Int) = snText (b : Int)) : a = b := by
  have := snText_natAbs h
  simpa using this

theorem snText_abs (z : Int) : snText z = snText (z.natAbs : Int) := by
  unfold snText
  simp

/-! ## Lists of certificates -/

theorem findText_mem {text : Str} {l : List Cert} {c : Cert} (h : findText text l = some c) :
    c ∈ l ∧ c.text = text :=
  ⟨List.mem_of_find?_eq_some h, of_decide_eq_true (List.find?_some h :)⟩

theorem findText_append {text : Str} {l l' : List Cert} {c : Cert} (h : findText text l = some c) :
    findText text (l ++ l') = some c := by
  unfold findText at *
  rw [List.find?_append, h]
  rfl

theorem setRev_some {text : Str} {r : Rev} : ∀ {l l' : List Cert} {x : Cert},
    setRev text r l = some (x, l') →
      findText text l = some x ∧ findText text l' = some { x with rev := some r } ∧
      (∀ t, t ≠ text → findText t l' = findText t l) ∧
      (∀ c ∈ l', c ∈ l ∨ c = { x with rev := some r }) := by
  intro l
  induction l with
  | nil => intro l' x h; cases h
  | cons c t ih =>
    intro l' x h
    unfold setRev at h
    by_cases hc : c.text = text
    · rw [if_pos hc] at h
      cases h
      refine ⟨?_, ?_, ?_, ?_⟩
      · unfold findText
        rw [List.find?_cons_of_pos (by simpa using hc)]
      · unfold findText
        rw [List.find?_cons_of_pos (by simpa using hc)]
      · intro t' ht'
        unfold findText
        rw [List.find?_cons_of_neg, List.find?_cons_of_neg]
        · simpa [hc] using fun h => ht' h.symm
        · simpa [hc] using fun h => ht' h.symm
      · intro c' hc'
        rcases List.mem_cons.1 hc' with rfl | hc'
        · exact .inr rfl
        · exact .inl (List.mem_cons_of_mem _ hc')
    · rw [if_neg hc] at h
      cases hs : setRev text r t with
      | none => rw [hs] at h; cases h
      | some p =>
        obtain ⟨x', t'⟩ := p
        rw [hs] at h
        cases h
        obtain ⟨h1, h2, h3, h4⟩ := ih hs
        refine ⟨?_, ?_, ?_, ?_⟩
        · unfold findText
          rw [List.find?_cons_of_neg (by simpa using hc)]
          exact h1
        · unfold findText
          rw [List.find?_cons_of_neg (by simpa using hc)]
          exact h2
        · intro t2 ht2
          have := h3 t2 ht2
          unfold findText at *
          rw [List.find?_cons, List.find?_cons, this]
        · intro c' hc'
          rcases List.mem_cons.1 hc' with rfl | hc'
          · exact .inl List.mem_cons_self
          · rcases h4 c' hc' with h | h
            · exact .inl (List.mem_cons_of_mem _ h)
            · exact .inr h

theorem le_lastRev {l : List Cert} {c : Cert} {r : Rev} (hc : c ∈ l) (hr : c.rev = some r) :
    r.time ≤ lastRev l := by
  have aux : ∀ (l : List Cert) (m : Nat),
      m ≤ l.foldl (fun m c => match c.rev with | none => m | some r => max m r.time) m := by
    intro l
    induction l with
    | nil => intro m; exact Nat.le_refl _
    | cons a l ih =>
      intro m
      rw [List.foldl_cons]
      refine Nat.le_trans ?_ (ih _)
      cases a.rev with
      | none => exact Nat.le_refl _
      | some r => exact Nat.le_max_left _ _
  have aux2 : ∀ (l : List Cert) (m : Nat), c ∈ l →
      r.time ≤ l.foldl (fun m c => match c.rev with | none => m | some r => max m r.time) m := by
    intro l
    induction l with
    | nil => intro m h; cases h
    | cons a l ih =>
      intro m h
      rw [List.foldl_cons]
      rcases List.mem_cons.1 h with rfl | h
      · refine Nat.le_trans ?_ (aux l _)
        rw [hr]
        exact Nat.le_max_right _ _
      · exact ih _ h
  exact aux2 l 0 hc

theorem trunc_le (t : Nat) : trunc t ≤ t := by unfold trunc; omega

theorem trunc_mono {a b : Nat} (h : a ≤ b) : trunc a ≤ trunc b := by
  unfold trunc
  have := Nat.div_le_div_right (c := 1000) h
  omega

/-! ## The log -/

/-- What holds of a certificate made for a user. -/
def UserCert (e : Str) (c : Cert) : Prop :=
  c.emails = [e] ∧ c.uris = [] ∧ c.ips = [] ∧
  (c.cn = e ∨ ∃ x, x ≠ [] ∧ c.cn = e ++ ("::".toList ++ x)) ∧ c.isCA = false ∧
  (c.clientAuth = true → c.dns = [])

/-- The log says that this serial number was revoked. -/
def Rvk (log : List Event) (serial : Nat) : Prop := ∃ rid na t, Event.revoked rid serial na t ∈ log

/-- What holds of an event given the earlier ones. -/
def Cond (cfg : Cfg) : Event → List Event → Prop
  | .signed c user, _ =>
    c.rev = none ∧ ∀ e, user = some e → UserCert e c
  | .asked _ email admin c t, l =>
    (∃ user, Event.signed c user ∈ l) ∧ c.rev = none ∧ t ≤ c.notAfter ∧
    (email ∈ c.emails ∨ (admin = true ∧ email ∈ cfg.admins)) ∧ ¬ Rvk l c.serial
  | .revoked rid serial _ _, l =>
    ∃ email admin c t0, Event.asked rid email admin c t0 ∈ l ∧ c.serial = serial
  | .crl x t, l =>
    x.thisUpd ≤ t ∧ x.nextUpd = x.thisUpd + 3600000 ∧ t < x.nextUpd + 1800000 ∧
    (∀ rid serial na t', Event.revoked rid serial na t' ∈ l →
      (∃ r, (serial, r) ∈ x.entries) ∨ na < t ∨
        ∃ rid' na' t'', Event.revoked rid' serial na' t'' ∈ l ∧ trunc t'' = x.thisUpd) ∧
    (∀ serial r, (serial, r) ∈ x.entries → ∃ rid email admin c t', Event.asked rid email admin c t' ∈ l ∧
      c.serial = serial) ∧
    (∀ y t', Event.crl y t' ∈ l → y = x ∨ y.number < x.number)
  | .ocsp ok z st, l =>
    (ok = false → st = .unknown) ∧
    (st = .good → ∃ c user, Event.signed c user ∈ l ∧ c.serial = z.natAbs ∧ ¬ Rvk l c.serial) ∧
    (ok = true → Rvk l z.natAbs → st = .revoked)
  | .check z b, l =>
    (Rvk l z.natAbs → b = true) ∧
    (b = true → ∃ rid email admin c t, Event.asked rid email admin c t ∈ l ∧ c.serial = z.natAbs)

def LogOk (cfg : Cfg) : List Event → Prop
  | [] => True
  | e :: l => Cond cfg e l ∧ LogOk cfg l

theorem logOk_split {cfg : Cfg} {l1 l2 : List Event} {e : Event}
    (h : LogOk cfg (l1 ++ e :: l2)) : Cond cfg e l2 := by
  induction l1 with
  | nil => exact h.1
  | cons a l ih => exact ih h.2

/-! ## Invariant -/

/-- The log says that somebody entitled asked for the revocation of this serial number. -/
def Asked (log : List Event) (serial : Nat) : Prop :=
  ∃ rid email admin c t, Event.asked rid email admin c t ∈ log ∧ c.serial = serial

/-- A database agrees with the log. -/
structure DbOk (log : List Event) (db : Db) : Prop where
  cert : ∀ c ∈ db.issued, c.text = snText c.serial ∧
    (∃ user, Event.signed { c with rev := none } user ∈ log) ∧ (c.rev.isSome → Asked log c.serial)
  rvk : ∀ t ∈ db.revoked, ∃ serial : Nat, t = snText serial ∧ Asked log serial

/-- Every revocation in the log is in the database. -/
def Keeps (log : List Event) (db : Db) : Prop :=
  ∀ rid serial na t, Event.revoked rid serial na t ∈ log →
    snText serial ∈ db.revoked ∧ ∃ c r, findText (snText serial) db.issued = some c ∧
      c.rev = some r

structure Inv (cfg : Cfg) (s : State) : Prop where
  db : DbOk s.log s.db
  disk : DbOk s.log s.disk
  kdb : Keeps s.log s.db
  kdisk : Keeps s.log s.disk
  times : ∀ rid serial na t, Event.revoked rid serial na t ∈ s.log →
    ∃ c r, findText (snText serial) s.disk.issued = some c ∧ c.rev = some r ∧ c.notAfter = na ∧
      ∃ rid' na' t', Event.revoked rid' serial na' t' ∈ s.log ∧ r.time = trunc t'
  pend : ∀ rid serial, (rid, serial) ∈ s.pending →
    ∃ email admin c t, Event.asked rid email admin c t ∈ s.log ∧ c.serial = serial
  last : ∀ l, s.disk.lists.getLast? = some l →
    l.number ≤ s.disk.crlNumber ∧ l.thisUpd ≤ trunc s.clock ∧ l.nextUpd = l.thisUpd + 3600000 ∧
    (∀ serial r, (serial, r) ∈ l.entries → Asked s.log serial) ∧
    ∀ c ∈ s.disk.issued, ∀ r, c.rev = some r → r.time < l.thisUpd →
      (∃ r', (c.serial, r') ∈ l.entries) ∨ c.notAfter < s.clock
  served : ∀ y t, Event.crl y t ∈ s.log →
    ∃ l, s.disk.lists.getLast? = some l ∧ (y = l ∨ y.number < l.number)
  log : LogOk cfg s.log

theorem Asked.mono {l l' : List Event} (h : ∀ x ∈ l, x ∈ l') {n : Nat} (a : Asked l n) :
    Asked l' n := by
  obtain ⟨rid, email, admin, c, t, hm, hs⟩ := a
  exact ⟨rid, email, admin, c, t, h _ hm, hs⟩

theorem DbOk.mono {l l' : List Event} (h : ∀ x ∈ l, x ∈ l') {db : Db} (d : DbOk l db) :
    DbOk l' db := by
  constructor
  · intro c hc
    obtain ⟨h1, ⟨u, h2⟩, h3⟩ := d.cert c hc
    exact ⟨h1, ⟨u, h _ h2⟩, fun hr => (h3 hr).mono h⟩
  · intro t ht
    obtain ⟨n, h1, h2⟩ := d.rvk t ht
    exact ⟨n, h1, h2.mono h⟩

theorem reread_ok {cfg : Cfg} {s : State} (i : Inv cfg s) :
    DbOk s.log (reread s) ∧ Keeps s.log (reread s) := by
  refine ⟨⟨i.disk.cert, ?_⟩, ?_⟩
  · intro t ht
    rcases List.mem_append.1 ht with ht | ht
    · exact i.disk.rvk t ht
    · exact i.db.rvk t ht
  · intro rid serial na t h
    obtain ⟨h1, h2⟩ := i.kdisk rid serial na t h
    exact ⟨List.mem_append_left _ h1, h2⟩

theorem Rvk.disk {cfg : Cfg} {s : State} (i : Inv cfg s) {n : Nat} (h : Rvk s.log n) :
    snText n ∈ s.db.revoked ∧ ∃ c r, findText (snText n) s.db.issued = some c ∧ c.rev = some r := by
  obtain ⟨rid, na, t, h⟩ := h
  exact i.kdb rid n na t h

/-- Steps that log nothing about revocations and change memory only. -/
theorem Inv.mem {cfg : Cfg} {s : State} (i : Inv cfg s) {db : Db} {p : List (Nat × Nat)}
    (hd : DbOk s.log db) (hk : Keeps s.log db) (hp : ∀ x ∈ p, x ∈ s.pending) :
    Inv cfg { s with db := db, pending := p } where
  db := hd
  disk := i.disk
  kdb := hk
  kdisk := i.kdisk
  times := i.times
  pend rid serial h := i.pend rid serial (hp _ h)
  last := i.last
  served := i.served
  log := i.log

theorem inv_tick {cfg : Cfg} {s : State} (i : Inv cfg s) {now : Nat} (h : s.clock ≤ now) :
    Inv cfg { s with clock := now } where
  db := i.db
  disk := i.disk
  kdb := i.kdb
  kdisk := i.kdisk
  times := i.times
  pend := i.pend
  last l hl := by
    obtain ⟨h1, h2, h3, h4, h5⟩ := i.last l hl
    refine ⟨h1, Nat.le_trans h2 (trunc_mono h), h3, h4, ?_⟩
    intro c hc r hr ht
    rcases h5 c hc r hr ht with h5 | h5
    · exact .inl h5
    · exact .inr (Nat.lt_of_lt_of_le h5 h)
  served := i.served
  log := i.log

/-- Logging an event that says nothing about revocations or lists. -/
theorem Inv.ev {cfg : Cfg} {s : State} (i : Inv cfg s) {e : Event} (hc : Cond cfg e s.log)
    (h1 : ∀ rid serial na t, e ≠ .revoked rid serial na t) (h2 : ∀ y t, e ≠ .crl y t) :
    Inv cfg { s with log := e :: s.log } := by
  have hm : ∀ x ∈ s.log, x ∈ e :: s.log := fun _ h => List.mem_cons_of_mem _ h
  have hr : ∀ {rid serial na t}, Event.revoked rid serial na t ∈ e :: s.log →
      Event.revoked rid serial na t ∈ s.log := by
    intro rid serial na t h
    rcases List.mem_cons.1 h with h | h
    · exact absurd h.symm (h1 _ _ _ _)
    · exact h
  refine ⟨i.db.mono hm, i.disk.mono hm, ?_, ?_, ?_, ?_, ?_, ?_, hc, i.log⟩
  · intro rid serial na t h
    exact i.kdb _ _ _ _ (hr h)
  · intro rid serial na t h
    exact i.kdisk _ _ _ _ (hr h)
  · intro rid serial na t h
    obtain ⟨c, r, h1, h2, h3, rid', na', t', h4, h5⟩ := i.times _ _ _ _ (hr h)
    exact ⟨c, r, h1, h2, h3, rid', na', t', hm _ h4, h5⟩
  · intro rid serial h
    obtain ⟨em, ad, c, t, h1, h2⟩ := i.pend _ _ h
    exact ⟨em, ad, c, t, hm _ h1, h2⟩
  · intro l hl
    obtain ⟨h1, h2, h3, h4, h5⟩ := i.last l hl
    exact ⟨h1, h2, h3, fun serial r h => (h4 serial r h).mono hm, h5⟩
  · intro y t h
    rcases List.mem_cons.1 h with h | h
    · exact absurd h.symm (h2 _ _)
    · exact i.served y t h

theorem inv_sign {cfg : Cfg} {s : State} (i : Inv cfg s) {cert : Cert} {user : Option Str}
    (c : Commit) (ht : cert.text = snText cert.serial) (hr : cert.rev = none)
    (hu : ∀ e, user = some e → UserCert e cert) : Inv cfg (sign s cert user c) := by
  obtain ⟨hd, hk⟩ := reread_ok i
  unfold sign
  split
  · exact i
  split
  · exact i.mem hd hk (fun _ h => h)
  · have j := i.ev (e := .signed cert user) ⟨hr, hu⟩ (fun _ _ _ _ h => by cases h)
      (fun _ _ h => by cases h)
    have hm : ∀ x ∈ s.log, x ∈ Event.signed cert user :: s.log :=
      fun _ h => List.mem_cons_of_mem _ h
    have hrm : ∀ {rid serial na t}, Event.revoked rid serial na t ∈ Event.signed cert user :: s.log →
        Event.revoked rid serial na t ∈ s.log := by
      intro rid serial na t h
      rcases List.mem_cons.1 h with h | h
      · cases h
      · exact h
    have hd' : DbOk (Event.signed cert user :: s.log)
        { reread s with issued := (reread s).issued ++ [cert] } := by
      refine ⟨?_, (hd.mono hm).rvk⟩
      intro x hx
      rcases List.mem_append.1 hx with hx | hx
      · exact (hd.mono hm).cert x hx
      · rw [List.mem_singleton.1 hx]
        refine ⟨ht, ⟨user, ?_⟩, fun h => by rw [hr] at h; cases h⟩
        have : { cert with rev := none } = cert := by rw [← hr]
        rw [this]
        exact List.mem_cons_self
    have hk' : Keeps (Event.signed cert user :: s.log)
        { reread s with issued := (reread s).issued ++ [cert] } := by
      intro rid serial na t h
      obtain ⟨h1, x, r, h2, h3⟩ := hk rid serial na t (hrm h)
      exact ⟨h1, x, r, findText_append h2, h3⟩
    unfold commit
    split
    · refine ⟨hd', hd', hk', hk', ?_, j.pend, ?_, j.served, j.log⟩
      · intro rid serial na t h
        obtain ⟨x, r, h1, h2, h3, h4⟩ := j.times rid serial na t h
        exact ⟨x, r, findText_append h1, h2, h3, h4⟩
      · intro l hl
        obtain ⟨h1, h2, h3, h4, h5⟩ := j.last l hl
        refine ⟨h1, h2, h3, h4, ?_⟩
        intro x hx r hxr hlt
        rcases List.mem_append.1 hx with hx | hx
        · exact h5 x hx r hxr hlt
        · rw [List.mem_singleton.1 hx, hr] at hxr
          cases hxr
    · exact ⟨hd', j.disk, hk', j.kdisk, j.times, j.pend, j.last, j.served, j.log⟩

theorem inv_revoke {cfg : Cfg} {s : State} (i : Inv cfg s) {rid serial reason now : Nat}
    (c : Commit) (hnow : s.clock ≤ now)
    (ha : ∃ email admin c t, Event.asked rid email admin c t ∈ s.log ∧ c.serial = serial) :
    Inv cfg (revoke s rid serial reason now c) := by
  obtain ⟨hd, hk⟩ := reread_ok i
  have hasked : Asked s.log serial := by
    obtain ⟨em, ad, x, t, h1, h2⟩ := ha
    exact ⟨rid, em, ad, x, t, h1, h2⟩
  unfold revoke
  split
  · exact i
  dsimp only
  cases hs : setRev (snText serial) ⟨trunc now, reason⟩ (reread s).issued with
  | none => exact i.mem hd hk (fun _ h => h)
  | some p =>
    obtain ⟨x, l⟩ := p
    obtain ⟨f1, f2, f3, f4⟩ := setRev_some hs
    obtain ⟨hxm, hxt⟩ := findText_mem f1
    obtain ⟨hx1, hx2, -⟩ := hd.cert x hxm
    have hxs : x.serial = serial := snText_inj (by rw [← hx1, hxt])
    have hd' : DbOk s.log
        { reread s with issued := l, revoked := snText serial :: (reread s).revoked } := by
      constructor
      · intro y hy
        rcases f4 y hy with hy | rfl
        · exact hd.cert y hy
        · exact ⟨hx1, hx2, fun _ => by show Asked s.log x.serial; rw [hxs]; exact hasked⟩
      · intro t ht
        rcases List.mem_cons.1 ht with rfl | ht
        · exact ⟨serial, rfl, hasked⟩
        · exact hd.rvk t ht
    have hk' : Keeps s.log
        { reread s with issued := l, revoked := snText serial :: (reread s).revoked } := by
      intro rid' serial' na t h
      obtain ⟨h1, y, r, h2, h3⟩ := hk rid' serial' na t h
      refine ⟨List.mem_cons_of_mem _ h1, ?_⟩
      by_cases hn : snText (serial' : Int) = snText serial
      · rw [hn]
        exact ⟨_, _, f2, rfl⟩
      · exact ⟨y, r, by rw [f3 _ hn]; exact h2, h3⟩
    dsimp only
    unfold commit
    by_cases hc : c = .ok
    · rw [if_pos hc, if_pos hc]
      have hm : ∀ x' ∈ s.log, x' ∈ Event.revoked rid serial x.notAfter now :: s.log :=
        fun _ h => List.mem_cons_of_mem _ h
      have hk'' : Keeps (Event.revoked rid serial x.notAfter now :: s.log)
          { reread s with issued := l, revoked := snText serial :: (reread s).revoked } := by
        intro rid' serial' na t h
        rcases List.mem_cons.1 h with h | h
        · cases h
          exact ⟨List.mem_cons_self, _, _, f2, rfl⟩
        · exact hk' rid' serial' na t h
      refine ⟨hd'.mono hm, hd'.mono hm, hk'', hk'', ?_, ?_, ?_, ?_, ha, i.log⟩
      · intro rid' serial' na t h
        rcases List.mem_cons.1 h with h | h
        · cases h
          exact ⟨_, _, f2, rfl, rfl, rid, x.notAfter, now, List.mem_cons_self, rfl⟩
        · obtain ⟨y, r, h1, h2, h3, rid'', na'', t'', h4, h5⟩ := i.times rid' serial' na t h
          by_cases hn : snText (serial' : Int) = snText serial
          · obtain rfl := snText_inj hn
            have : some x = some y := f1.symm.trans h1
            cases this
            exact ⟨_, _, f2, rfl, h3, rid, x.notAfter, now, List.mem_cons_self, rfl⟩
          · exact ⟨y, r, by show findText _ l = _; rw [f3 _ hn]; exact h1, h2, h3, rid'', na'', t'',
              hm _ h4, h5⟩
      · intro rid' serial' h
        obtain ⟨em, ad, y, t, h1, h2⟩ := i.pend rid' serial' h
        exact ⟨em, ad, y, t, hm _ h1, h2⟩
      · intro l' hl'
        obtain ⟨h1, h2, h3, h4, h5⟩ := i.last l' hl'
        refine ⟨h1, h2, h3, fun a b h => (h4 a b h).mono hm, ?_⟩
        intro y hy r hr hlt
        rcases f4 y hy with hy | rfl
        · exact h5 y hy r hr hlt
        · exfalso
          cases hr
          have := trunc_mono hnow
          exact absurd hlt (by show ¬ trunc now < _; omega)
      · intro y t h
        rcases List.mem_cons.1 h with h | h
        · cases h
        · exact i.served y t h
    · rw [if_neg hc, if_neg hc]
      exact i.mem (p := s.pending) hd' hk' (fun _ h => h)

theorem mem_entries {l : List Cert} {now : Nat} {c : Cert} {r : Rev} (hc : c ∈ l)
    (hr : c.rev = some r) : (c.serial, r) ∈ entries l now ∨ c.notAfter < now := by
  by_cases h : c.notAfter < now
  · exact .inr h
  · left
    unfold entries
    rw [List.mem_filterMap]
    refine ⟨c, hc, ?_⟩
    rw [hr]
    exact if_neg h

theorem entries_mem {l : List Cert} {now serial : Nat} {r : Rev} (h : (serial, r) ∈ entries l now) :
    ∃ c ∈ l, c.serial = serial ∧ c.rev = some r := by
  unfold entries at h
  rw [List.mem_filterMap] at h
  obtain ⟨c, hc, h⟩ := h
  refine ⟨c, hc, ?_⟩
  cases hr : c.rev with
  | none => rw [hr] at h; cases h
  | some r' =>
    rw [hr] at h
    dsimp only at h
    split at h
    · cases h
    · cases h
      exact ⟨rfl, rfl⟩

theorem getLast_drop {α : Type} (l : List α) (x : α) :
    ((l ++ [x]).drop ((l ++ [x]).length - 128)).getLast? = some x := by
  have h : (l ++ [x]).length - 128 < (l ++ [x]).length := by simp; omega
  rw [List.getLast?_drop, if_neg (by omega)]
  simp

theorem DbOk.serial {log : List Event} {db : Db} (d : DbOk log db) {n : Nat} {c : Cert}
    (h : findText (snText n) db.issued = some c) : c.serial = n := by
  obtain ⟨h1, h2⟩ := findText_mem h
  exact snText_inj (by rw [← (d.cert c h1).1, h2])

/-- What a list covers, from what its entries cover in the database. -/
theorem covers {cfg : Cfg} {s : State} (i : Inv cfg s) {x : Crl} {now : Nat}
    (hlast : ∀ c ∈ s.disk.issued, ∀ r, c.rev = some r →
      (∃ r', (c.serial, r') ∈ x.entries) ∨ c.notAfter < now ∨ r.time = x.thisUpd) :
    ∀ rid serial na t', Event.revoked rid serial na t' ∈ s.log →
      (∃ r, (serial, r) ∈ x.entries) ∨ na < now ∨
        ∃ rid' na' t'', Event.revoked rid' serial na' t'' ∈ s.log ∧ trunc t'' = x.thisUpd := by
  intro rid serial na t' h
  obtain ⟨c, r, h1, h2, h3, rid', na', t'', h4, h5⟩ := i.times rid serial na t' h
  have hs := i.disk.serial h1
  rcases hlast c (findText_mem h1).1 r h2 with h | h | h
  · rw [hs] at h
    exact .inl h
  · exact .inr (.inl (h3 ▸ h))
  · exact .inr (.inr ⟨rid', na', t'', h4, by rw [← h5, h]⟩)

theorem reuse_some {db : Db} {now : Nat} {l : Crl} (h : reuse db now = some l) :
    db.lists.getLast? = some l ∧ lastRev db.issued ≤ l.thisUpd ∧ now < l.nextUpd + 1800000 := by
  unfold reuse at h
  cases hl : db.lists.getLast? with
  | none => rw [hl] at h; cases h
  | some l' =>
    rw [hl] at h
    dsimp only at h
    split at h
    · rename_i hc
      cases h
      exact ⟨rfl, by omega, hc.2⟩
    · cases h

theorem inv_crl {cfg : Cfg} {s : State} (i : Inv cfg s) (c : Commit) {now : Nat}
    (hnow : s.clock = now) : Inv cfg (serveCrl s now c) := by
  obtain ⟨hd, hk⟩ := reread_ok i
  have hnumber : ∀ y t, Event.crl y t ∈ s.log → y.number ≤ s.disk.crlNumber := by
    intro y t h
    obtain ⟨l, hl, h⟩ := i.served y t h
    have := (i.last l hl).1
    rcases h with rfl | h <;> omega
  have hserved : ∀ (l : Crl), Cond cfg (.crl l now) s.log → ∀ (s' : State),
      s'.log = .crl l now :: s.log → s'.clock = s.clock → s'.pending = s.pending →
      s'.db.issued = s.disk.issued → s'.db.revoked = s.disk.revoked ++ s.db.revoked →
      s'.disk.issued = s.disk.issued → (s'.disk.revoked = s.disk.revoked ∨ s'.disk.revoked = s.disk.revoked ++ s.db.revoked) →
      s'.disk.lists.getLast? = some l →
      (l.number ≤ s'.disk.crlNumber ∧ l.thisUpd ≤ trunc s.clock ∧ l.nextUpd = l.thisUpd + 3600000 ∧
        (∀ serial r, (serial, r) ∈ l.entries → Asked s.log serial) ∧
        ∀ c ∈ s.disk.issued, ∀ r, c.rev = some r → r.time < l.thisUpd →
          (∃ r', (c.serial, r') ∈ l.entries) ∨ c.notAfter < s.clock) → Inv cfg s' := by
    intro l hc s' elog eclock epend edi edr eki ekr elast hl
    have hm : ∀ x ∈ s.log, x ∈ s'.log := by
      intro x hx
      rw [elog]
      exact List.mem_cons_of_mem _ hx
    have hrm : ∀ {rid serial na t}, Event.revoked rid serial na t ∈ s'.log →
        Event.revoked rid serial na t ∈ s.log := by
      intro rid serial na t h
      rw [elog] at h
      rcases List.mem_cons.1 h with h | h
      · cases h
      · exact h
    have hrr : ∀ t, t ∈ s'.disk.revoked → t ∈ (reread s).revoked := by
      intro t ht
      rcases ekr with e | e
      · rw [e] at ht
        exact List.mem_append_left _ ht
      · rw [e] at ht
        exact ht
    refine ⟨⟨?_, ?_⟩, ⟨?_, ?_⟩, ?_, ?_, ?_, ?_, ?_, ?_, ?_⟩
    · rw [edi]
      exact (hd.mono hm).cert
    · rw [edr]
      exact (hd.mono hm).rvk
    · rw [eki]
      exact (hd.mono hm).cert
    · intro t ht
      exact (hd.mono hm).rvk t (hrr t ht)
    · intro rid serial na t h
      rw [edr, edi]
      exact hk rid serial na t (hrm h)
    · intro rid serial na t h
      obtain ⟨h1, h2⟩ := i.kdisk rid serial na t (hrm h)
      rw [eki]
      refine ⟨?_, h2⟩
      rcases ekr with e | e
      · rw [e]
        exact h1
      · rw [e]
        exact List.mem_append_left _ h1
    · intro rid serial na t h
      obtain ⟨x, r, h1, h2, h3, rid', na', t', h4, h5⟩ := i.times rid serial na t (hrm h)
      rw [eki]
      exact ⟨x, r, h1, h2, h3, rid', na', t', hm _ h4, h5⟩
    · intro rid serial h
      rw [epend] at h
      obtain ⟨em, ad, y, t, h1, h2⟩ := i.pend rid serial h
      exact ⟨em, ad, y, t, hm _ h1, h2⟩
    · intro l' hl'
      rw [elast] at hl'
      cases hl'
      rw [eki, eclock]
      exact ⟨hl.1, hl.2.1, hl.2.2.1, fun a b h => (hl.2.2.2.1 a b h).mono hm, hl.2.2.2.2⟩
    · intro y t h
      rw [elog] at h
      refine ⟨l, elast, ?_⟩
      rcases List.mem_cons.1 h with h | h
      · cases h
        exact .inl rfl
      · exact hc.2.2.2.2.2 y t h
    · rw [elog]
      exact ⟨hc, i.log⟩
  unfold serveCrl
  split
  · exact i
  dsimp only
  cases hr : reuse (reread s) now with
  | some l =>
    obtain ⟨h1, h2, h3⟩ := reuse_some hr
    have h1 : s.disk.lists.getLast? = some l := h1
    have h2 : lastRev s.disk.issued ≤ l.thisUpd := h2
    have hl := i.last l h1
    refine hserved l ⟨?_, hl.2.2.1, h3, ?_, hl.2.2.2.1, ?_⟩ _ rfl rfl rfl rfl rfl rfl (.inl rfl) h1 hl
    · have := trunc_le s.clock
      omega
    · apply covers i
      intro x hx r hxr
      have := le_lastRev hx hxr
      by_cases he : r.time = l.thisUpd
      · exact .inr (.inr he)
      · rcases hl.2.2.2.2 x hx r hxr (by omega) with h | h
        · exact .inl h
        · exact .inr (.inl (hnow ▸ h))
    · intro y t h
      obtain ⟨l', hl', h⟩ := i.served y t h
      rw [h1] at hl'
      cases hl'
      exact h
  | none =>
    dsimp only
    split
    · exact i.mem (p := s.pending) ⟨hd.cert, hd.rvk⟩ hk (fun _ h => h)
    · unfold commit
      by_cases hc : c = .ok
      · rw [if_pos hc, if_pos hc]
        have hask : ∀ serial r, (serial, r) ∈ (newCrl (reread s) now).entries → Asked s.log serial := by
          intro serial r h
          obtain ⟨x, hx, hxs, hxr⟩ := entries_mem h
          exact hxs ▸ (hd.cert x hx).2.2 (by rw [hxr]; rfl)
        have hnext : (newCrl (reread s) now).nextUpd = (newCrl (reread s) now).thisUpd + 3600000 := by
          show trunc (now + 3600000) = trunc now + 3600000
          unfold trunc
          omega
        refine hserved (newCrl (reread s) now) ⟨?_, hnext, ?_, ?_, hask, ?_⟩ _ rfl rfl rfl rfl rfl rfl
          (.inr rfl) (by dsimp only; exact getLast_drop _ _) ⟨Nat.le_refl _, ?_, hnext, hask, ?_⟩
        · exact trunc_le now
        · rw [hnext]
          have : now < trunc now + 1000 := by
            unfold trunc
            omega
          have e : (newCrl (reread s) now).thisUpd = trunc now := rfl
          rw [e]
          omega
        · apply covers i
          intro x hx r hxr
          rcases mem_entries (now := now) hx hxr with h | h
          · exact .inl ⟨r, h⟩
          · exact .inr (.inl h)
        · intro y t h
          exact .inr (Nat.lt_succ_of_le (hnumber y t h))
        · rw [hnow]
          exact Nat.le_refl _
        · intro x hx r hxr _
          rcases mem_entries (now := now) hx hxr with h | h
          · exact .inl ⟨r, h⟩
          · exact .inr (hnow ▸ h)
      · rw [if_neg hc, if_neg hc]
        exact i.mem (p := s.pending) ⟨hd.cert, hd.rvk⟩ hk (fun _ h => h)

theorem inv_check {cfg : Cfg} {s : State} (i : Inv cfg s) (rid : Nat) (email : Str) (a : Bool)
    (sn : Str) (now : Nat) : Inv cfg (revokeCheck cfg s rid email a sn now) := by
  unfold revokeCheck findCert
  dsimp only
  cases hf : findText sn s.db.issued with
  | none => exact i
  | some c =>
    dsimp only
    cases hr : c.rev with
    | some r => exact i
    | none =>
      dsimp only [Option.isSome]
      rw [if_neg (by simp)]
      dsimp only
      split
      · exact i
      · rename_i hna
        split
        · exact i
        · rename_i hau
          obtain ⟨hm, ht⟩ := findText_mem hf
          obtain ⟨h1, ⟨u, h2⟩, h3⟩ := i.db.cert c hm
          have hnr : ¬ Rvk s.log c.serial := by
            intro h
            obtain ⟨-, x, r, hx, hxr⟩ := h.disk i
            rw [← h1, ht, hf] at hx
            cases hx
            rw [hr] at hxr
            cases hxr
          have hcond : Cond cfg (.asked rid email (a && decide (email ∈ cfg.admins)) c now) s.log := by
            refine ⟨⟨u, ?_⟩, hr, by omega, ?_, hnr⟩
            · have : { c with rev := none } = c := by rw [← hr]
              rwa [this] at h2
            · by_cases he : email ∈ c.emails
              · exact .inl he
              · right
                have hau' : (a && decide (email ∈ cfg.admins)) = true := by
                  cases hb : (a && decide (email ∈ cfg.admins)) with
                  | true => rfl
                  | false => rw [hb] at hau; simp [he] at hau
                refine ⟨hau', ?_⟩
                simpa using (Bool.and_eq_true_iff.1 hau').2
          have j := i.ev hcond (fun _ _ _ _ h => by cases h) (fun _ _ h => by cases h)
          refine ⟨j.db, j.disk, j.kdb, j.kdisk, j.times, ?_, j.last, j.served, j.log⟩
          intro rid' serial h
          rcases List.mem_cons.1 h with h | h
          · cases h
            exact ⟨_, _, c, now, List.mem_cons_self, rfl⟩
          · exact j.pend rid' serial h

theorem inv_do {cfg : Cfg} {s : State} (i : Inv cfg s) (rid now : Nat) (c : Commit)
    (hnow : s.clock ≤ now) : Inv cfg (revokeDo s rid now c) := by
  unfold revokeDo
  cases hf : s.pending.find? (fun p => decide (p.1 = rid)) with
  | none => exact i
  | some p =>
    have hm := List.mem_of_find?_eq_some hf
    have he : p.1 = rid := by simpa using List.find?_some hf
    have hp := i.pend p.1 p.2 hm
    rw [he] at hp
    have j := i.mem (p := s.pending.filter fun q => decide (q.1 ≠ rid)) i.db i.kdb
      (fun x hx => (List.mem_filter.1 hx).1)
    exact inv_revoke j c hnow hp

theorem inv_ocsp {cfg : Cfg} {s : State} (i : Inv cfg s) (ok : Bool) (z : Int) :
    Cond cfg (.ocsp ok z (ocspStatus s.db ok z)) s.log := by
  unfold ocspStatus
  cases ok with
  | false => exact ⟨fun _ => rfl, fun h => by simp at h, fun h => by cases h⟩
  | true =>
    refine ⟨fun h => (by cases h), ?_, ?_⟩
    · intro h
      cases hf : findText (snText z) s.db.issued with
      | none => rw [hf] at h; simp at h
      | some c =>
        rw [hf] at h
        rw [snText_abs] at hf
        have hs := i.db.serial hf
        obtain ⟨hm, -⟩ := findText_mem hf
        obtain ⟨-, ⟨u, h2⟩, -⟩ := i.db.cert c hm
        refine ⟨{ c with rev := none }, u, h2, hs, ?_⟩
        intro hr
        have hr : Rvk s.log c.serial := hr
        rw [hs] at hr
        obtain ⟨-, x, r, hx, hxr⟩ := hr.disk i
        rw [hf] at hx
        cases hx
        dsimp only at h
        rw [hxr] at h
        simp at h
    · intro _ hr
      obtain ⟨-, x, r, hx, hxr⟩ := hr.disk i
      rw [← snText_abs] at hx
      rw [hx]
      dsimp only
      rw [hxr]
      rfl

theorem inv_isRevoked {cfg : Cfg} {s : State} (i : Inv cfg s) (z : Int) :
    Cond cfg (.check z (isRevoked s.db z)) s.log := by
  unfold isRevoked
  constructor
  · intro hr
    have := (hr.disk i).1
    rw [← snText_abs] at this
    exact decide_eq_true this
  · intro h
    obtain ⟨n, h1, h2⟩ := i.db.rvk _ (of_decide_eq_true h)
    have := snText_natAbs h1
    simp only [Int.natAbs_natCast] at this
    rw [this]
    exact h2

theorem userCert_issue (email : Str) (inp : Csr) (sn now : Nat) :
    UserCert email (issueCert (userCsr email inp) sn now) := by
  refine ⟨rfl, rfl, rfl, ?_, rfl, ?_⟩
  · show (if inp.cn = [] then email else _) = _ ∨ ∃ x, _ ∧ (if inp.cn = [] then email else _) = _
    by_cases h : inp.cn = []
    · exact .inl (if_pos h)
    · exact .inr ⟨inp.cn, h, if_neg h⟩
  · show (!(decide (inp.dns.length > 0) || decide (([] : List Str).length > 0))) = true → inp.dns = []
    cases inp.dns with
    | nil => intro _; rfl
    | cons a t => intro h; simp at h

/-- Time does not go backwards. -/
def Pre (s : State) (o : Op) : Prop := s.clock ≤ o.now s

def WF (cfg : Cfg) : List Op → State → Prop
  | [], _ => True
  | o :: os, s => Pre s o ∧ WF cfg os (step cfg s o)

instance WF.dec (cfg : Cfg) : ∀ (ops : List Op) (s : State), Decidable (WF cfg ops s)
  | [], _ => .isTrue trivial
  | _ :: os, s => @instDecidableAnd _ _ (Nat.decLe _ _) (WF.dec cfg os _)

theorem inv_step {cfg : Cfg} {s : State} {o : Op} (i : Inv cfg s) (h : Pre s o) :
    Inv cfg (step cfg s o) := by
  have j := inv_tick i h
  cases o with
  | request email inp sn now c =>
    refine inv_sign j c rfl rfl ?_
    intro e he
    cases he
    exact userCert_issue _ _ _ _
  | delegate cn sn now life c => exact inv_sign j c rfl rfl (fun e he => by cases he)
  | revokeCheck rid email a sn now => exact inv_check j rid email a sn now
  | revokeDo rid now c => exact inv_do j rid now c (Nat.le_refl _)
  | crl now c => exact inv_crl j c rfl
  | ocsp ok z =>
    exact j.ev (inv_ocsp j ok z) (fun _ _ _ _ h => by cases h) (fun _ _ h => by cases h)
  | check z => exact j.ev (inv_isRevoked j z) (fun _ _ _ _ h => by cases h) (fun _ _ h => by cases h)
  | reload => exact j.mem (p := s.pending) i.disk i.kdisk (fun _ h => h)
  | restart => exact j.mem (p := []) i.disk i.kdisk (fun _ h => by cases h)

theorem inv_run {cfg : Cfg} : ∀ {ops : List Op} {s : State}, Inv cfg s → WF cfg ops s →
    Inv cfg (run cfg ops s)
  | [], _, i, _ => i
  | _ :: os, _, i, w => inv_run (ops := os) (inv_step i w.1) w.2

theorem inv_init (cfg : Cfg) : Inv cfg init where
  db := ⟨fun _ h => (by cases h), fun _ h => (by cases h)⟩
  disk := ⟨fun _ h => (by cases h), fun _ h => (by cases h)⟩
  kdb := fun _ _ _ _ h => (by cases h)
  kdisk := fun _ _ _ _ h => (by cases h)
  times := fun _ _ _ _ h => (by cases h)
  pend := fun _ _ h => (by cases h)
  last := fun _ h => (by cases h)
  served := fun _ _ h => (by cases h)
  log := trivial

end Verif.Pki
