import Verif.Model.PkiKeys
/-
C128.
-/
namespace Verif.PkiKeys

/-! ## Signatures -/

/-- New keys are real ones. -/
def Spec.RealKeys (ops : List Op) : Prop :=
  ∀ o ∈ ops, match o with
    | .start k _ _ => k ≠ 0
    | _ => True

/-- What a relying party that trusts the CA key `k` can check. -/
def Spec.Verifies (k : Nat) : Event → Prop
  | .ca c _ => c.pub = k ∧ c.signer = k
  | .signed c _ => c.signer = k
  | .crl l _ => l.cert.signer = k ∧ l.signer = l.cert.pub
  | .ocsp cert signer _ => cert.signer = k ∧ signer = cert.pub
  | .panic _ => True

/-- Everything in the structure was signed with `k`, and the delegate key belongs to the first delegate
certificate. -/
structure Good (k : Nat) (db : Db) : Prop where
  ca : ∀ c, db.ca = some c → c.pub = k ∧ c.signer = k
  issued : ∀ c ∈ db.issued, c.signer = k
  dcerts : ∀ c ∈ db.dcerts, c.signer = k
  head : ∀ c l, db.dcerts = c :: l → c.pub = db.dkey
  crl : ∀ l, db.lastCrl = some l → l.cert.signer = k ∧ l.signer = l.cert.pub

structure GoodSt (k : Nat) (s : St) : Prop where
  key : s.disk.key = k
  wiped : s.mem.key = 0
  disk : Good k s.disk
  mem : Good k s.mem
  log : ∀ e ∈ s.log, Spec.Verifies k e

/-- Nothing has been made yet. -/
structure Blank (s : St) : Prop where
  disk : s.disk = {}
  wiped : s.mem.key = 0
  down : s.up = false
  idle : s.threads = []
  log : s.log = []

def Inv (s : St) : Prop := Blank s ∨ ∃ k, k ≠ 0 ∧ GoodSt k s

theorem good_empty (k : Nat) : Good k {} :=
  ⟨fun _ h => (nomatch h), fun _ h => (List.not_mem_nil h).elim, fun _ h => (List.not_mem_nil h).elim,
   fun _ _ h => (nomatch h), fun _ h => (nomatch h)⟩

theorem good_key {k : Nat} {db : Db} (h : Good k db) (n : Nat) : Good k { db with key := n } :=
  ⟨h.ca, h.issued, h.dcerts, h.head, h.crl⟩

theorem goodSt_close {k : Nat} {s : St} (h : GoodSt k s) (db : Db) (hd : Good k db) (hk : db.key = k) (save : Bool) :
    GoodSt k (s.close db save) := by
  refine ⟨?_, rfl, ?_, good_key hd 0, h.log⟩
  · unfold St.close
    cases save
    · exact h.key
    · exact hk
  · unfold St.close
    cases save
    · exact h.disk
    · exact hd

theorem goodSt_log {k : Nat} {s : St} (h : GoodSt k s) {e : Event} (he : Spec.Verifies k e) {l : List Event}
    (hl : ∀ e ∈ l, Spec.Verifies k e) : GoodSt k { s with log := e :: l } := by
  refine ⟨h.key, h.wiped, h.disk, h.mem, ?_⟩
  intro x hx
  rcases List.mem_cons.mp hx with rfl | hx
  · exact he
  · exact hl x hx

theorem goodSt_threads {k : Nat} {s : St} (h : GoodSt k s) (t : List (Nat × Phase)) :
    GoodSt k { s with threads := t } := ⟨h.key, h.wiped, h.disk, h.mem, h.log⟩

theorem good_init {k now : Nat} {db : Db} (hk : db.key = k) (h : Good k db) : Good k (initCert db now) := by
  refine ⟨?_, ?_, h.dcerts, h.head, h.crl⟩
  · intro c hc
    have : mkCrt db.key db.key now caLife = c := by simpa [initCert] using hc
    subst this
    exact ⟨hk, hk⟩
  · intro c hc
    rcases List.mem_append.mp hc with hc | hc
    · exact h.issued c hc
    · rw [List.mem_singleton.mp hc]; exact hk

/-- `initCA` leaves a structure for the key there was, or else for the new one. -/
theorem good_initDb {db : Db} {k nk now : Nat} (hk : (if db.key = 0 then nk else db.key) = k) (h : Good k db) :
    (initDb db nk now).1.key = k ∧ Good k (initDb db nk now).1 ∧
      ((initDb db nk now).2 = false → (initDb db nk now).1 = db) ∧ (initDb db nk now).1.ca ≠ none := by
  have h1 : (initKey db nk).key = k ∧ Good k (initKey db nk) := by
    unfold initKey
    split
    · rename_i h0
      rw [if_pos h0] at hk
      exact ⟨hk, good_key h nk⟩
    · rename_i h0
      rw [if_neg h0] at hk
      exact ⟨hk, h⟩
  unfold initDb
  dsimp only
  split
  · exact ⟨h1.1, good_init h1.1 h1.2, by simp, by simp [initCert]⟩
  · rename_i hn
    refine ⟨h1.1, h1.2, ?_, ?_⟩
    · intro hf
      have h0 : ¬db.key = 0 := by simpa using hf
      show initKey db nk = db
      unfold initKey
      rw [if_neg h0]
    · intro hca
      apply hn
      unfold needCA
      have hca : (initKey db nk).ca = none := hca
      rw [hca]

theorem inv_start {s : St} (h : Inv s) (nk now : Nat) (c : Commit) (hk : nk ≠ 0) : Inv (s.start nk now c) := by
  -- the key after the start
  have main : ∀ k, k ≠ 0 → (if s.disk.key = 0 then nk else s.disk.key) = k → Good k s.disk →
      (∀ e ∈ s.log, Spec.Verifies k e) →
      ((initDb s.disk nk now).2 = false → s.disk.key = k) →
      Inv ((({ s with mem := {}, up := false, threads := [] } : St).close (initDb s.disk nk now).1
        (initDb s.disk nk now).2)) ∧
      ∀ ca, (initDb s.disk nk now).1.ca = some ca →
        Inv { (({ s with mem := {}, up := false, threads := [] } : St).close (initDb s.disk nk now).1
          (initDb s.disk nk now).2) with up := true, log := .ca ca now :: s.log } := by
    intro k hk0 hkk hg hl hch
    obtain ⟨a, b, c, d⟩ := good_initDb (now := now) hkk hg
    have gs : GoodSt k (({ s with mem := {}, up := false, threads := [] } : St).close (initDb s.disk nk now).1
        (initDb s.disk nk now).2) := by
      refine ⟨?_, rfl, ?_, good_key b 0, hl⟩
      · unfold St.close
        cases hx : (initDb s.disk nk now).2
        · exact hch hx
        · exact a
      · unfold St.close
        cases hx : (initDb s.disk nk now).2
        · exact hg
        · exact b
    refine ⟨Or.inr ⟨k, hk0, gs⟩, fun ca hca => Or.inr ⟨k, hk0, ?_⟩⟩
    have := goodSt_log gs (e := .ca ca now) (b.ca ca hca) hl
    exact ⟨this.key, this.wiped, this.disk, this.mem, this.log⟩
  unfold St.start
  dsimp only
  split
  · rcases h with hb | ⟨k, hk0, hg⟩
    · exact Or.inl ⟨hb.disk, rfl, rfl, rfl, hb.log⟩
    · exact Or.inr ⟨k, hk0, ⟨hg.key, rfl, hg.disk, good_empty k, hg.log⟩⟩
  · split
    · rcases h with hb | ⟨k, hk0, hg⟩
      · exact Or.inl ⟨hb.disk, rfl, rfl, rfl, hb.log⟩
      · refine Or.inr ⟨k, hk0, ⟨hg.key, rfl, hg.disk, ?_, hg.log⟩⟩
        have hd : s.disk.key ≠ 0 := fun h0 => hk0 (hg.key ▸ h0)
        exact good_key (good_initDb (by rw [if_neg hd]; exact hg.key) hg.disk).2.1 0
    · have fin : Inv ((({ s with mem := {}, up := false, threads := [] } : St).close (initDb s.disk nk now).1
          (initDb s.disk nk now).2)) ∧
          ∀ ca, (initDb s.disk nk now).1.ca = some ca →
          Inv { (({ s with mem := {}, up := false, threads := [] } : St).close (initDb s.disk nk now).1
            (initDb s.disk nk now).2) with up := true, log := .ca ca now :: s.log } := by
        rcases h with hb | ⟨k, hk0, hg⟩
        · refine main nk hk (by rw [hb.disk]; rfl) (by rw [hb.disk]; exact good_empty nk)
            (by rw [hb.log]; intro e he; cases he) ?_
          intro hf
          rw [hb.disk] at hf
          exact absurd hf (by simp [initDb, needCA, initKey])
        · have hd : s.disk.key ≠ 0 := fun h0 => hk0 (hg.key ▸ h0)
          exact main k hk0 (by rw [if_neg hd]; exact hg.key) hg.disk hg.log (fun _ => hg.key)
      split
      · rename_i ca hca
        exact fin.2 ca hca
      · exact fin.1

theorem good_sign {k : Nat} {s : St} (h : GoodSt k s) (pub now0 now life : Nat) (next : Db → Crt → Db) (c : Commit)
    (hn : ∀ db : Db, Good k db → db.key = k → Good k (next db (mkCrt pub k now0 life)) ∧
      (next db (mkCrt pub k now0 life)).key = k) :
    GoodSt k (s.sign pub now0 now life next c) := by
  have hb : Good k { s.disk with issued := s.disk.issued ++ [mkCrt pub k now0 life] } := by
    refine ⟨h.disk.ca, ?_, h.disk.dcerts, h.disk.head, h.disk.crl⟩
    intro x hx
    rcases List.mem_append.mp hx with hx | hx
    · exact h.disk.issued x hx
    · rw [List.mem_singleton.mp hx]; rfl
  obtain ⟨g1, g2⟩ := hn _ hb h.key
  unfold St.sign
  rw [h.key]
  split
  · exact h
  · split
    · exact goodSt_close h _ h.disk h.key _
    · dsimp only
      split
      · refine goodSt_log (goodSt_close h _ g1 g2 _) ?_ h.log
        exact rfl
      · exact goodSt_close h _ g1 g2 _

theorem good_putDelegate {k : Nat} (key now0 life : Nat) (db : Db) (h : Good k db) (hk : db.key = k) :
    Good k (putDelegate key db (mkCrt key k now0 life)) ∧ (putDelegate key db (mkCrt key k now0 life)).key = k := by
  refine ⟨⟨h.ca, h.issued, ?_, ?_, h.crl⟩, hk⟩
  · intro c hc
    rcases List.mem_cons.mp hc with rfl | hc
    · rfl
    · exact h.dcerts c (List.mem_of_mem_take hc)
  · intro c l hc
    have : mkCrt key k now0 life = c := (List.cons.inj hc).1
    subst this
    rfl

theorem inv_step {s : St} (h : Inv s) (o : Op) (hk : ∀ k now c, o = .start k now c → k ≠ 0) : Inv (step s o) := by
  have h' : Inv { s with clock := o.now } := by
    rcases h with hb | ⟨k, hk0, hg⟩
    · exact Or.inl ⟨hb.disk, hb.wiped, hb.down, hb.idle, hb.log⟩
    · exact Or.inr ⟨k, hk0, ⟨hg.key, hg.wiped, hg.disk, hg.mem, hg.log⟩⟩
  unfold step
  generalize { s with clock := o.now } = s1 at h'
  clear h
  cases o with
  | start nk now c => exact inv_start h' nk now c (hk nk now c rfl)
  | issue pub now0 now c =>
    unfold act
    dsimp only
    rcases h' with hb | ⟨k, hk0, hg⟩
    · rw [if_neg (by simp [hb.down])]; exact Or.inl hb
    · split
      · exact Or.inr ⟨k, hk0, good_sign hg _ _ _ _ _ _ (fun db a b => ⟨a, b⟩)⟩
      · exact Or.inr ⟨k, hk0, hg⟩
  | begin tid now =>
    unfold act
    dsimp only
    rcases h' with hb | ⟨k, hk0, hg⟩
    · rw [if_neg (by simp [hb.down])]; exact Or.inl hb
    · split
      · exact Or.inr ⟨k, hk0, goodSt_threads hg _⟩
      · exact Or.inr ⟨k, hk0, hg⟩
  | rotate tid key now c =>
    show Inv (s1.rotate tid key now c)
    unfold St.rotate
    rcases h' with hb | ⟨k, hk0, hg⟩
    · rw [hb.idle]; exact Or.inl hb
    · refine Or.inr ⟨k, hk0, ?_⟩
      have gs : ∀ t0, GoodSt k (s1.sign key t0 now delegateLife (putDelegate key) c) := fun t0 =>
        good_sign hg _ _ _ _ _ _ (fun db a b => good_putDelegate key t0 delegateLife db a b)
      split
      · dsimp only
        split
        · exact goodSt_threads (gs _) _
        · exact goodSt_threads (gs _) _
      · exact hg
  | crl tid u now c =>
    show Inv (s1.crl tid u now c)
    unfold St.crl
    rcases h' with hb | ⟨k, hk0, hg⟩
    · rw [hb.idle]; exact Or.inl hb
    · refine Or.inr ⟨k, hk0, ?_⟩
      split
      · dsimp only
        have ht := goodSt_threads hg (s1.threads.filter fun p => p.1 ≠ tid)
        split
        · exact ht
        · have hcl := goodSt_close ht s1.disk hg.disk hg.key false
          split
          · rename_i l hl
            refine goodSt_log hcl ?_ hg.log
            unfold reusable at hl
            split at hl
            · rename_i l' hl'
              split at hl
              · cases hl; exact hg.disk.crl l hl'
              · cases hl
            · cases hl
          · split
            · refine goodSt_log hcl ?_ hg.log
              exact trivial
            · rename_i d ds hd
              have hd' : d.signer = k ∧ s1.disk.dkey = d.pub :=
                ⟨hg.disk.dcerts d (by rw [hd]; simp), (hg.disk.head d ds hd).symm⟩
              have hdb : Good k { s1.disk with lastCrl := some ⟨d, s1.disk.dkey, trunc now, trunc (now + crlPeriod)⟩ } := by
                refine ⟨hg.disk.ca, hg.disk.issued, hg.disk.dcerts, hg.disk.head, ?_⟩
                intro l hl
                have : (⟨d, s1.disk.dkey, trunc now, trunc (now + crlPeriod)⟩ : Crl) = l := Option.some.inj hl
                subst this
                exact hd'
              split
              · exact hcl
              · split
                · refine goodSt_log (goodSt_close ht _ hdb hg.key true) ?_ hg.log
                  exact hd'
                · exact goodSt_close ht _ hdb hg.key false
      · exact hg
  | ocsp tid now c =>
    show Inv (s1.ocsp tid now c)
    unfold St.ocsp
    rcases h' with hb | ⟨k, hk0, hg⟩
    · rw [hb.idle]; exact Or.inl hb
    · refine Or.inr ⟨k, hk0, ?_⟩
      split
      · dsimp only
        have ht := goodSt_threads hg (s1.threads.filter fun p => p.1 ≠ tid)
        split
        · refine goodSt_log ht ?_ hg.log
          exact trivial
        · rename_i d ds hd
          split
          · refine goodSt_log ht ?_ hg.log
            exact ⟨hg.mem.dcerts d (by rw [hd]; simp), (hg.mem.head d ds hd).symm⟩
          · exact ht
      · exact hg
  | other now c =>
    unfold act
    dsimp only
    rcases h' with hb | ⟨k, hk0, hg⟩
    · rw [if_neg (by simp [hb.down])]; exact Or.inl hb
    · refine Or.inr ⟨k, hk0, ?_⟩
      split
      · unfold St.other
        split
        · exact hg
        · exact goodSt_close hg _ hg.disk hg.key _
      · exact hg

theorem inv_run (ops : List Op) {s : St} (h : Inv s) (hk : Spec.RealKeys ops) : Inv (run ops s) := by
  induction ops generalizing s with
  | nil => exact h
  | cons o ops ih =>
    refine ih (inv_step h o ?_) (fun o ho => hk o (List.mem_cons_of_mem _ ho))
    intro k now c he
    have := hk o (by simp)
    rw [he] at this
    exact this

/-- C128, signatures. Over all restarts, requests and failures there is one CA key: every CA certificate is for it,
every certificate is signed with it, and every revocation list and OCSP answer is signed with the key of the
delegate certificate that comes with it, which is signed with the CA key. -/
theorem signatures_verify (ops : List Op) (hk : Spec.RealKeys ops) :
    ∃ k, k ≠ 0 ∧ ∀ e ∈ (run ops {}).log, Spec.Verifies k e := by
  rcases inv_run ops (s := {}) (Or.inl ⟨rfl, rfl, rfl, rfl, rfl⟩) hk with h | ⟨k, hk, h⟩
  · exact ⟨1, by decide, by rw [h.log]; intro e he; cases he⟩
  · exact ⟨k, hk, h.log⟩

/-- C128, the CA key is in memory only while a critical section runs. -/
theorem key_wiped (ops : List Op) (hk : Spec.RealKeys ops) : (run ops {}).mem.key = 0 := by
  rcases inv_run ops (s := {}) (Or.inl ⟨rfl, rfl, rfl, rfl, rfl⟩) hk with h | ⟨k, hk, h⟩
  · exact h.wiped
  · exact h.wiped

/-- A start, a certificate, a revocation list with a first delegate, a failed start, another start with a new CA
certificate, and an OCSP answer with a new delegate: all for key 5. -/
def Ex.ops : List Op :=
  [.start 5 1000 .ok, .issue 77 2000 2500 .ok, .begin 1 3000, .rotate 1 6 3500 .ok, .crl 1 true 4000 .ok,
   .start 8 200000000000 .fails, .start 9 200000001000 .ok, .begin 2 200000002000, .rotate 2 7 200000003000 .ok,
   .ocsp 2 200000004000 .ok]

example : Spec.RealKeys Ex.ops ∧ (run Ex.ops {}).log.map (fun e => match e with
    | .ca c _ => (c.pub, c.signer)
    | .signed c _ => (c.pub, c.signer)
    | .crl l _ => (l.cert.pub, l.signer)
    | .ocsp c k _ => (c.pub, k)
    | .panic _ => (0, 0)) = [(7, 7), (7, 5), (5, 5), (6, 6), (6, 5), (77, 5), (5, 5)] := by
  refine ⟨?_, by decide⟩
  intro o ho
  simp only [Ex.ops, List.mem_cons, List.not_mem_nil, or_false] at ho
  rcases ho with h | h | h | h | h | h | h | h | h | h <;> subst h <;> simp

/-! ## Dates -/

/-- The request that the step belongs to started at most a day ago, and new delegates can be stored. -/
def Spec.prompt (s : St) : Op → Prop
  | .rotate tid _ now c => c ≠ .fails ∧ ∀ p, s.threads.lookup tid = some p →
      now ≤ (match p with | .rotating t0 => t0 | .ready t0 => t0) + 86400000
  | .crl tid _ now _ => ∀ p, s.threads.lookup tid = some p →
      now ≤ (match p with | .rotating t0 => t0 | .ready t0 => t0) + 86400000
  | .ocsp tid now _ => ∀ p, s.threads.lookup tid = some p →
      now ≤ (match p with | .rotating t0 => t0 | .ready t0 => t0) + 86400000
  | _ => True

/-- The clock does not run backwards, and requests are prompt. -/
def Spec.Timely : List Op → St → Prop
  | [], _ => True
  | o :: os, s => s.clock ≤ o.now ∧ Spec.prompt s o ∧ Spec.Timely os (step s o)

/-- The certificate that comes with an answer is valid at the time of the answer, and the list is not older than
two and a half hours. -/
def Spec.Current : Event → Prop
  | .crl l t => l.cert.nb ≤ t ∧ t ≤ l.cert.na ∧ l.thisUpd ≤ t ∧ t < l.thisUpd + 9000000
  | .ocsp cert _ t => cert.nb ≤ t ∧ t ≤ cert.na
  | .panic _ => False
  | _ => True

structure Timed (s : St) : Prop where
  dcert : ∀ c ∈ s.disk.dcerts, c.na = c.nb + 864000000 ∧ c.nb ≤ trunc s.clock
  sync : s.up = true → s.mem.dcerts = s.disk.dcerts
  idle : s.up = false → s.threads = []
  rot : ∀ tid t0, (tid, Phase.rotating t0) ∈ s.threads → t0 ≤ s.clock
  ready : ∀ tid t0, (tid, Phase.ready t0) ∈ s.threads →
    t0 ≤ s.clock ∧ ∃ c l, s.disk.dcerts = c :: l ∧ t0 ≤ c.nb + 432000000
  crl : ∀ l, s.disk.lastCrl = some l → l.cert.nb ≤ l.thisUpd ∧ l.thisUpd ≤ s.clock ∧
    l.thisUpd + 345600000 ≤ l.cert.na ∧ l.nextUpd = l.thisUpd + 3600000
  log : ∀ e ∈ s.log, Spec.Current e

theorem trunc_le (t : Nat) : trunc t ≤ t := by unfold trunc; omega
theorem trunc_lt (t : Nat) : t < trunc t + 1000 := by unfold trunc; omega
theorem trunc_mono {t u : Nat} (h : t ≤ u) : trunc t ≤ trunc u := by unfold trunc; omega
theorem trunc_add (t n : Nat) : trunc (t + 1000 * n) = trunc t + 1000 * n := by unfold trunc; omega

theorem mem_lookup {l : List (Nat × Phase)} {tid : Nat} {p : Phase} (h : l.lookup tid = some p) : (tid, p) ∈ l := by
  induction l with
  | nil => cases h
  | cons a l ih =>
    obtain ⟨x, y⟩ := a
    rw [List.lookup_cons] at h
    by_cases hx : tid = x
    · subst hx
      simp at h
      subst h
      simp
    · rw [beq_eq_false_iff_ne.mpr hx] at h
      exact List.mem_cons_of_mem _ (ih h)

theorem timed_clock {s : St} (h : Timed s) {t : Nat} (ht : s.clock ≤ t) : Timed { s with clock := t } := by
  refine ⟨fun c hc => ⟨(h.dcert c hc).1, Nat.le_trans (h.dcert c hc).2 (trunc_mono ht)⟩, h.sync, h.idle,
    fun a b hm => Nat.le_trans (h.rot a b hm) ht,
    fun a b hm => ⟨Nat.le_trans (h.ready a b hm).1 ht, (h.ready a b hm).2⟩, ?_, h.log⟩
  intro l hl
  obtain ⟨a, b, c, d⟩ := h.crl l hl
  exact ⟨a, Nat.le_trans b ht, c, d⟩

/-- A critical section that keeps the delegates and the last list. -/
theorem timed_close {s : St} (h : Timed s) (db : Db) (hd : db.dcerts = s.disk.dcerts) (save : Bool)
    (hl : save = true → ∀ l, db.lastCrl = some l → l.cert.nb ≤ l.thisUpd ∧ l.thisUpd ≤ s.clock ∧
      l.thisUpd + 345600000 ≤ l.cert.na ∧ l.nextUpd = l.thisUpd + 3600000) : Timed (s.close db save) := by
  cases save with
  | false => exact ⟨h.dcert, fun _ => hd, h.idle, h.rot, h.ready, h.crl, h.log⟩
  | true =>
    refine ⟨?_, fun _ => rfl, h.idle, h.rot, ?_, hl rfl, h.log⟩
    · intro c hc
      have hc : c ∈ db.dcerts := hc
      rw [hd] at hc
      exact h.dcert c hc
    · intro a b hm
      obtain ⟨p, c, l, q, r⟩ := h.ready a b hm
      exact ⟨p, c, l, hd.trans q, r⟩

theorem timed_threads {s : St} (h : Timed s) (f : Nat × Phase → Bool) :
    Timed { s with threads := s.threads.filter f } :=
  ⟨h.dcert, h.sync, fun hu => by show s.threads.filter f = []; rw [h.idle hu]; rfl,
   fun a b hm => h.rot a b (List.mem_filter.mp hm).1, fun a b hm => h.ready a b (List.mem_filter.mp hm).1,
   h.crl, h.log⟩

theorem timed_log {s : St} (h : Timed s) {e : Event} (he : Spec.Current e) {l : List Event}
    (hl : ∀ e ∈ l, Spec.Current e) : Timed { s with log := e :: l } := by
  refine ⟨h.dcert, h.sync, h.idle, h.rot, h.ready, h.crl, ?_⟩
  intro x hx
  rcases List.mem_cons.mp hx with rfl | hx
  · exact he
  · exact hl x hx

theorem initDb_keeps (db : Db) (nk now : Nat) :
    (initDb db nk now).1.dcerts = db.dcerts ∧ (initDb db nk now).1.lastCrl = db.lastCrl := by
  have h : (initKey db nk).dcerts = db.dcerts ∧ (initKey db nk).lastCrl = db.lastCrl := by
    unfold initKey; split <;> exact ⟨rfl, rfl⟩
  unfold initDb
  dsimp only
  split <;> exact h

theorem timed_start {s : St} (h : Timed s) (nk now : Nat) (c : Commit) : Timed (s.start nk now c) := by
  have h0 : Timed { s with mem := {}, up := false, threads := [] } :=
    ⟨h.dcert, fun hu => (nomatch hu), fun _ => rfl, fun _ _ hm => (nomatch hm), fun _ _ hm => (nomatch hm), h.crl, h.log⟩
  obtain ⟨k1, k2⟩ := initDb_keeps s.disk nk now
  unfold St.start
  dsimp only
  split
  · exact h0
  · split
    · exact timed_close h0 _ k1 false (by simp)
    · have h1 := timed_close h0 (initDb s.disk nk now).1 k1 (initDb s.disk nk now).2
        (fun _ l hl => h0.crl l (k2 ▸ hl))
      split
      · rename_i x _
        have h2 := timed_log h1 (e := .ca x now) (by exact trivial) h.log
        exact ⟨h2.dcert, fun _ => by
            show (initDb s.disk nk now).1.dcerts = _
            rw [k1]
            unfold St.close
            cases (initDb s.disk nk now).2
            · rfl
            · exact k1.symm, fun hu => (nomatch hu), h2.rot, h2.ready, h2.crl, h2.log⟩
      · exact h1

theorem timed_rotate {s : St} (h : Timed s) (tid key now : Nat) (c : Commit) (hn : now = s.clock)
    (hp : Spec.prompt s (.rotate tid key now c)) : Timed (s.rotate tid key now c) := by
  obtain ⟨hc, hp⟩ := hp
  unfold St.rotate
  split
  · rename_i t0 hl
    have hlt : now ≤ t0 + 86400000 := hp _ hl
    have hm := mem_lookup hl
    have ht0 := h.rot _ _ hm
    have hup : s.up = true := by
      cases hu : s.up with
      | true => rfl
      | false => rw [h.idle hu] at hm; cases hm
    dsimp only
    unfold St.sign
    cases c with
    | fails => exact absurd rfl hc
    | openFails =>
      rw [if_neg (by simp), if_pos rfl]
      exact timed_threads h _
    | buildFails =>
      rw [if_neg (by simp), if_neg (by simp), if_pos rfl]
      exact timed_threads (timed_close h s.disk rfl false (by simp)) _
    | ok =>
      rw [if_pos rfl, if_neg (by simp), if_neg (by simp), if_pos rfl]
      have h1 := trunc_le t0
      have h2 := trunc_lt t0
      have h3 := trunc_add t0 864000
      refine ⟨?_, fun _ => rfl, fun hu => ?_, ?_, ?_, h.crl, ?_⟩
      · intro x hx
        rcases List.mem_cons.mp hx with rfl | hx
        · exact ⟨h3, trunc_mono ht0⟩
        · exact h.dcert x (List.mem_of_mem_take hx)
      · have hu : s.up = false := hu
        rw [hup] at hu; cases hu
      · intro a b hab
        rcases List.mem_cons.mp hab with e | hab
        · cases e
        · exact h.rot a b (List.mem_filter.mp hab).1
      · intro a b hab
        refine ⟨?_, _, _, rfl, ?_⟩
        · rcases List.mem_cons.mp hab with e | hab
          · cases e; exact ht0
          · exact (h.ready a b (List.mem_filter.mp hab).1).1
        · show b ≤ trunc t0 + 432000000
          rcases List.mem_cons.mp hab with e | hab
          · cases e; omega
          · have := (h.ready a b (List.mem_filter.mp hab).1).1
            omega
      · intro e he
        rcases List.mem_cons.mp he with rfl | he
        · exact trivial
        · exact h.log e he
  · exact h

theorem timed_crl {s : St} (h : Timed s) (tid : Nat) (u : Bool) (now : Nat) (c : Commit) (hn : now = s.clock)
    (hp : Spec.prompt s (.crl tid u now c)) : Timed (s.crl tid u now c) := by
  unfold St.crl
  split
  · rename_i t0 hl
    have hlt : now ≤ t0 + 86400000 := hp _ hl
    obtain ⟨ht0, d, ds, hd, hnb⟩ := h.ready _ _ (mem_lookup hl)
    have hdc := h.dcert d (by rw [hd]; simp)
    dsimp only
    have ht := timed_threads h fun p => decide (p.1 ≠ tid)
    split
    · exact ht
    · have hcl := timed_close ht s.disk rfl false (by simp)
      split
      · rename_i l hr
        refine timed_log hcl ?_ h.log
        unfold reusable at hr
        split at hr
        · rename_i l' hl'
          split at hr
          · rename_i hcond
            cases hr
            simp only [Bool.and_eq_true, decide_eq_true_eq] at hcond
            obtain ⟨a, b, e, f⟩ := h.crl l hl'
            have hx := hcond.2
            unfold crlPeriod at hx
            refine ⟨by omega, by omega, by omega, by omega⟩
          · cases hr
        · cases hr
      · have h1 := trunc_le now
        have h2 := trunc_lt now
        have h3 := trunc_add now 3600
        have h4 : trunc (now + crlPeriod) = trunc now + 3600000 := h3
        split
        · rename_i he
          rw [hd] at he; cases he
        · rename_i d' ds' hd'
          rw [hd] at hd'
          obtain ⟨rfl, rfl⟩ := List.cons.inj hd'
          have hnbt : d.nb ≤ trunc now := hn ▸ hdc.2
          have hna := hdc.1
          split
          · exact hcl
          · split
            · refine timed_log (timed_close ht { s.disk with lastCrl := some _ } rfl true ?_) ?_ h.log
              · intro _ l hl
                cases hl
                exact ⟨hnbt, by show trunc now ≤ s.clock; omega, by show trunc now + 345600000 ≤ d.na; omega, h4⟩
              · exact ⟨by show d.nb ≤ now; omega, by show now ≤ d.na; omega, h1, by show now < trunc now + 9000000; omega⟩
            · exact timed_close ht { s.disk with lastCrl := some _ } rfl false (by simp)
  · exact h

theorem timed_ocsp {s : St} (h : Timed s) (tid now : Nat) (c : Commit) (hn : now = s.clock)
    (hp : Spec.prompt s (.ocsp tid now c)) : Timed (s.ocsp tid now c) := by
  unfold St.ocsp
  split
  · rename_i t0 hl
    have hlt : now ≤ t0 + 86400000 := hp _ hl
    have hm := mem_lookup hl
    obtain ⟨ht0, d, ds, hd, hnb⟩ := h.ready _ _ hm
    have hdc := h.dcert d (by rw [hd]; simp)
    have hup : s.up = true := by
      cases hu : s.up with
      | true => rfl
      | false => rw [h.idle hu] at hm; cases hm
    have hsy := h.sync hup
    rw [hd] at hsy
    dsimp only
    have ht := timed_threads h fun p => decide (p.1 ≠ tid)
    split
    · rename_i he
      rw [hsy] at he; cases he
    · rename_i d' ds' hd'
      rw [hsy] at hd'
      obtain ⟨rfl, rfl⟩ := List.cons.inj hd'
      split
      · refine timed_log ht ?_ h.log
        have h1 := trunc_le s.clock
        have hna := hdc.1
        have hnb' := hdc.2
        exact ⟨by show d.nb ≤ now; omega, by show now ≤ d.na; omega⟩
      · exact ht
  · exact h

theorem timed_begin {s : St} (h : Timed s) (tid now : Nat) (hn : now = s.clock) (hup : s.up = true) :
    Timed (s.begin tid now) := by
  unfold St.begin
  have hold : ∀ (p : Phase) (a : Nat) (q : Phase), (a, q) ∈ (tid, p) :: s.threads.filter (fun p => decide (p.1 ≠ tid)) →
      q = p ∨ (a, q) ∈ s.threads := by
    intro p a q hm
    rcases List.mem_cons.mp hm with e | hm
    · cases e; exact Or.inl rfl
    · exact Or.inr (List.mem_filter.mp hm).1
  refine ⟨h.dcert, h.sync, fun hu => ?_, ?_, ?_, h.crl, h.log⟩
  · have hu : s.up = false := hu
    rw [hup] at hu; cases hu
  · intro a b hm
    rcases hold _ _ _ hm with e | hm
    · split at e
      · cases e; exact Nat.le_of_eq hn
      · cases e
    · exact h.rot a b hm
  · intro a b hm
    rcases hold _ _ _ hm with e | hm
    · split at e
      · cases e
      · rename_i hnd
        cases e
        refine ⟨Nat.le_of_eq hn, ?_⟩
        unfold needDelegate at hnd
        rw [h.sync hup] at hnd
        split at hnd
        · exact absurd rfl hnd
        · rename_i c l hcl
          refine ⟨c, l, hcl, ?_⟩
          have hna := (h.dcert c (by rw [hcl]; simp)).1
          unfold pastHalf at hnd
          simp only [decide_eq_true_eq] at hnd
          omega
    · exact h.ready a b hm

theorem timed_step {s : St} (h : Timed s) (o : Op) (hc : s.clock ≤ o.now) (hp : Spec.prompt s o) : Timed (step s o) := by
  have h' := timed_clock h hc
  unfold step act
  cases o with
  | start nk now c => exact timed_start h' nk now c
  | issue pub now0 now c =>
    dsimp only
    split
    · unfold St.sign
      split
      · exact h'
      · split
        · exact timed_close h' s.disk rfl false (by simp)
        · dsimp only
          split
          · refine timed_log (timed_close h' { s.disk with issued := s.disk.issued ++ [mkCrt pub s.disk.key now0 caLife] } rfl true ?_) ?_ h.log
            · intro _ l hl; exact h'.crl l hl
            · exact trivial
          · exact timed_close h' { s.disk with issued := s.disk.issued ++ [mkCrt pub s.disk.key now0 caLife] } rfl false (by simp)
    · exact h'
  | begin tid now =>
    dsimp only
    split
    · rename_i hu; exact timed_begin h' tid now rfl hu
    · exact h'
  | rotate tid key now c => exact timed_rotate h' tid key now c rfl hp
  | crl tid u now c => exact timed_crl h' tid u now c rfl hp
  | ocsp tid now c => exact timed_ocsp h' tid now c rfl hp
  | other now c =>
    dsimp only
    split
    · unfold St.other
      split
      · exact h'
      · exact timed_close h' s.disk rfl false (by simp)
    · exact h'

theorem timed_run (ops : List Op) {s : St} (h : Timed s) (ht : Spec.Timely ops s) : Timed (run ops s) := by
  induction ops generalizing s with
  | nil => exact h
  | cons o ops ih => exact ih (timed_step h o ht.1 ht.2.1) ht.2.2

theorem timed_init : Timed {} :=
  ⟨fun _ h => (nomatch h), fun h => (nomatch h), fun _ => rfl, fun _ _ h => (nomatch h), fun _ _ h => (nomatch h),
   fun _ h => (nomatch h), fun _ h => (nomatch h)⟩

/-- C128, dates. As long as new delegate certificates can be stored, requests take at most a day and the clock does
not run backwards, every revocation list and every OCSP answer comes with a certificate that is valid at that time,
no list is older than two and a half hours, and no request panics. Missing: what happens after a delegate
certificate could not be stored. -/
theorem answers_current_partial (ops : List Op) (ht : Spec.Timely ops {}) :
    ∀ e ∈ (run ops {}).log, Spec.Current e := (timed_run ops timed_init ht).log

theorem prompt_of {l : List (Nat × Phase)} {tid now t0 : Nat} {p : Phase} (h : l.lookup tid = some p)
    (hp : p = .rotating t0 ∨ p = .ready t0) (ht : now ≤ t0 + 86400000) : ∀ q, l.lookup tid = some q →
      now ≤ (match q with | .rotating t0 => t0 | .ready t0 => t0) + 86400000 := by
  intro q hq
  rw [h] at hq
  cases hq
  rcases hp with rfl | rfl <;> exact ht

example : Spec.Timely Ex.ops {} ∧ (run Ex.ops {}).log.length = 7 := by
  refine ⟨⟨by decide, trivial, by decide, trivial, by decide, trivial, by decide, ⟨by decide, ?_⟩, by decide, ?_,
    by decide, trivial, by decide, trivial, by decide, trivial, by decide, ⟨by decide, ?_⟩, by decide, ?_, trivial⟩,
    by decide⟩
  · exact prompt_of (t0 := 3000) (p := .rotating 3000) (by decide) (by decide) (by decide)
  · exact prompt_of (t0 := 3000) (p := .ready 3000) (by decide) (by decide) (by decide)
  · exact prompt_of (t0 := 200000002000) (p := .rotating 200000002000) (by decide) (by decide) (by decide)
  · exact prompt_of (t0 := 200000002000) (p := .ready 200000002000) (by decide) (by decide) (by decide)

/-- The delegate certificate is renewed after five days, but cannot be stored; the next list is signed with the old
one, which has expired. -/
def Ex.unsaved : List Op :=
  [.start 5 1000 .ok, .begin 1 3000, .rotate 1 6 3500 .ok, .crl 1 true 4000 .ok,
   .begin 2 900000000, .rotate 2 7 900000500 .fails, .begin 3 900001000, .crl 3 false 900002000 .ok]

/-- C128, violated: an expired certificate comes with a revocation list. -/
theorem expired_delegate_violated : ∃ ops l t, Spec.RealKeys ops ∧ Event.crl l t ∈ (run ops {}).log ∧ l.cert.na < t ∧
    l.thisUpd = t := by
  refine ⟨Ex.unsaved, ⟨⟨6, 5, 3000, 864003000⟩, 6, 900002000, 900002000 + 3600000⟩, 900002000, ?_, by decide, by decide, rfl⟩
  intro o ho
  simp only [Ex.unsaved, List.mem_cons, List.not_mem_nil, or_false] at ho
  rcases ho with h | h | h | h | h | h | h | h <;> subst h <;> simp

/-- C128, violated: after the first delegate certificate could not be stored, the next request panics. -/
theorem panic_violated : ∃ ops t, Spec.RealKeys ops ∧ Event.panic t ∈ (run ops {}).log := by
  refine ⟨[.start 5 1000 .ok, .begin 1 3000, .rotate 1 6 3500 .fails, .begin 2 4000, .crl 2 true 5000 .ok], 5000, ?_,
    by decide⟩
  intro o ho
  simp only [List.mem_cons, List.not_mem_nil, or_false] at ho
  rcases ho with h | h | h | h | h <;> subst h <;> simp

/-! ## The dates of the CA certificate -/

/-- The last CA certificate that the log mentions, with the time of that start. -/
def Spec.lastCA : List Event → Option (Crt × Nat)
  | [] => none
  | .ca c t :: _ => some (c, t)
  | _ :: l => Spec.lastCA l

/-- The time of an event. -/
def Spec.time : Event → Nat
  | .ca _ t => t
  | .signed _ t => t
  | .crl _ t => t
  | .ocsp _ _ t => t
  | .panic t => t

/-- At the start of the process the CA certificate is valid, for at least another five years. -/
def Spec.FreshAt (c : Crt) (t : Nat) : Prop := c.nb ≤ t ∧ t + 157680000000 ≤ c.na

/-- The event happened while a CA certificate was in use that was fresh at the last start. -/
def Spec.Under (e : Event) (l : List Event) : Prop :=
  match e with
  | .ca c t => Spec.FreshAt c t
  | e => ∃ c t, Spec.lastCA l = some (c, t) ∧ Spec.FreshAt c t ∧ t ≤ Spec.time e

def Spec.AllUnder : List Event → Prop
  | [] => True
  | e :: l => Spec.Under e l ∧ Spec.AllUnder l

/-- The CA certificate is the one in the file; it was made or checked at the last start. -/
structure Dated (s : St) : Prop where
  ca : ∀ c, s.disk.ca = some c → c.na = c.nb + 315360000000 ∧ c.nb ≤ s.clock
  up : s.up = true → ∃ c t, Spec.lastCA s.log = some (c, t) ∧ Spec.FreshAt c t ∧ t ≤ s.clock
  idle : s.up = false → s.threads = []
  log : Spec.AllUnder s.log

theorem dated_clock {s : St} (h : Dated s) {t : Nat} (ht : s.clock ≤ t) : Dated { s with clock := t } := by
  refine ⟨fun c hc => ⟨(h.ca c hc).1, Nat.le_trans (h.ca c hc).2 ht⟩, ?_, h.idle, h.log⟩
  intro hu
  obtain ⟨c, t', a, b, d⟩ := h.up hu
  exact ⟨c, t', a, b, Nat.le_trans d ht⟩

theorem dated_close {s : St} (h : Dated s) (db : Db) (hd : db.ca = s.disk.ca) (save : Bool) : Dated (s.close db save) := by
  refine ⟨?_, h.up, h.idle, h.log⟩
  cases save
  · exact h.ca
  · intro c hc
    exact h.ca c (hd ▸ hc)

theorem dated_threads {s : St} (h : Dated s) (l : List (Nat × Phase)) (hl : s.threads = [] → l = []) :
    Dated { s with threads := l } := ⟨h.ca, h.up, fun hu => hl (h.idle hu), h.log⟩

theorem dated_log {s : St} (h : Dated s) (hu : s.up = true) (e : Event) (he : ∀ c t, e ≠ .ca c t)
    (ht : Spec.time e = s.clock) : Dated { s with log := e :: s.log } := by
  obtain ⟨c, t, a, b, d⟩ := h.up hu
  have hun : Spec.Under e s.log := by
    unfold Spec.Under
    split
    · exact absurd rfl (he _ _)
    · exact ⟨c, t, a, b, by rw [ht]; exact d⟩
  refine ⟨h.ca, fun _ => ⟨c, t, ?_, b, d⟩, h.idle, hun, h.log⟩
  cases e with
  | ca x y => exact absurd rfl (he x y)
  | signed x y => exact a
  | crl x y => exact a
  | ocsp x y z => exact a
  | panic x => exact a

theorem initDb_ca {db : Db} {nk now : Nat} {ca : Crt} (h : (initDb db nk now).1.ca = some ca)
    (hd : ∀ c, db.ca = some c → c.na = c.nb + 315360000000 ∧ c.nb ≤ now) :
    ca.na = ca.nb + 315360000000 ∧ Spec.FreshAt ca now ∧
      ((initDb db nk now).2 = false → db.ca = some ca) := by
  have hk : (initKey db nk).ca = db.ca := by unfold initKey; split <;> rfl
  unfold initDb at h ⊢
  dsimp only at h ⊢
  split at h
  · rename_i hn
    have hca : mkCrt (initKey db nk).key (initKey db nk).key now caLife = ca := by simpa [initCert] using h
    subst hca
    have h1 := trunc_le now
    have h2 := trunc_lt now
    have h3 : trunc (now + caLife) = trunc now + 315360000000 := trunc_add now 315360000
    refine ⟨h3, ⟨h1, ?_⟩, by rw [if_pos hn]; simp⟩
    show now + 157680000000 ≤ trunc (now + caLife)
    omega
  · rename_i hn
    have h : db.ca = some ca := hk ▸ h
    obtain ⟨a, b⟩ := hd ca h
    refine ⟨a, ⟨b, ?_⟩, fun _ => h⟩
    unfold needCA at hn
    rw [hk, h] at hn
    simp only [pastHalf, decide_eq_true_eq] at hn
    omega

theorem initDb_some (db : Db) (nk now : Nat) : (initDb db nk now).1.ca ≠ none := by
  unfold initDb
  dsimp only
  split
  · simp [initCert]
  · rename_i hn
    intro hca
    apply hn
    unfold needCA
    have hca : (initKey db nk).ca = none := hca
    rw [hca]

theorem dated_start {s : St} (h : Dated s) (nk now : Nat) (c : Commit) (hn : now = s.clock) : Dated (s.start nk now c) := by
  subst hn
  have h0 : Dated { s with mem := {}, up := false, threads := [] } :=
    ⟨h.ca, fun hu => (nomatch hu), fun _ => rfl, h.log⟩
  unfold St.start
  dsimp only
  split
  · exact h0
  · split
    · exact ⟨h.ca, fun hu => (nomatch hu), fun _ => rfl, h.log⟩
    · split
      · rename_i x hx
        obtain ⟨a, b, d⟩ := initDb_ca hx h.ca
        refine ⟨?_, fun _ => ⟨x, s.clock, rfl, b, Nat.le_refl _⟩, fun hu => (nomatch hu), b, h.log⟩
        intro y hy
        have hy : (if (initDb s.disk nk s.clock).2 = true then (initDb s.disk nk s.clock).1 else s.disk).ca = some y := hy
        split at hy
        · rw [hx] at hy; cases hy; exact ⟨a, b.1⟩
        · exact h.ca y hy
      · rename_i hx
        exact absurd hx (initDb_some _ _ _)

theorem up_of_lookup {s : St} (h : Dated s) {tid : Nat} {p : Phase} (hl : s.threads.lookup tid = some p) : s.up = true := by
  cases hu : s.up with
  | true => rfl
  | false => rw [h.idle hu] at hl; cases hl

theorem dated_sign {s : St} (h : Dated s) (hu : s.up = true) (pub now0 now life : Nat) (next : Db → Crt → Db) (c : Commit)
    (hn : now = s.clock) (hx : ∀ db x, (next db x).ca = db.ca) : Dated (s.sign pub now0 now life next c) := by
  unfold St.sign
  split
  · exact h
  · split
    · exact dated_close h _ rfl _
    · dsimp only
      split
      · refine dated_log (dated_close h _ ?_ true) hu (.signed _ now) ?_ hn
        · exact (hx _ _).trans rfl
        · intro c t he; cases he
      · refine dated_close h _ ?_ false
        exact (hx _ _).trans rfl

theorem dated_step {s : St} (h : Dated s) (o : Op) (hc : s.clock ≤ o.now) : Dated (step s o) := by
  have h' := dated_clock h hc
  have hfil : ∀ (l : List (Nat × Phase)) (f : Nat × Phase → Bool), l = [] → l.filter f = [] := by
    intro l f hl; rw [hl]; rfl
  unfold step act
  cases o with
  | start nk now c => exact dated_start h' nk now c rfl
  | issue pub now0 now c =>
    dsimp only
    split
    · rename_i hu; exact dated_sign h' hu _ _ _ _ _ _ rfl (fun _ _ => rfl)
    · exact h'
  | begin tid now =>
    dsimp only
    split
    · rename_i hu
      exact ⟨h'.ca, h'.up, fun hf => (Bool.noConfusion (hf.symm.trans (show s.up = true from hu))), h'.log⟩
    · exact h'
  | rotate tid key now c =>
    show Dated (St.rotate _ tid key now c)
    unfold St.rotate
    split
    · rename_i t0 hl
      have hu := up_of_lookup h' hl
      have hs := dated_sign h' hu key t0 now delegateLife (putDelegate key) c rfl (fun _ _ => rfl)
      have hup : (St.sign { s with clock := (Op.rotate tid key now c).now } key t0 now delegateLife (putDelegate key) c).up = true := by
        unfold St.sign
        split
        · exact hu
        · split
          · exact hu
          · dsimp only
            split <;> exact hu
      dsimp only
      split
      · exact ⟨hs.ca, hs.up, fun hf => Bool.noConfusion (hf.symm.trans hup), hs.log⟩
      · exact ⟨hs.ca, hs.up, fun hf => Bool.noConfusion (hf.symm.trans hup), hs.log⟩
    · exact h'
  | crl tid u now c =>
    show Dated (St.crl _ tid u now c)
    unfold St.crl
    split
    · rename_i t0 hl
      have hu := up_of_lookup h' hl
      have ht := dated_threads h' (s.threads.filter fun p => decide (p.1 ≠ tid)) (hfil _ _)
      dsimp only
      split
      · exact ht
      · have hcl := dated_close ht s.disk rfl false
        split
        · exact dated_log hcl hu _ (by simp) rfl
        · split
          · exact dated_log hcl hu _ (by simp) rfl
          · split
            · exact hcl
            · split
              · exact dated_log (dated_close ht { s.disk with lastCrl := some _ } rfl true) hu _ (by simp) rfl
              · exact dated_close ht { s.disk with lastCrl := some _ } rfl false
    · exact h'
  | ocsp tid now c =>
    show Dated (St.ocsp _ tid now c)
    unfold St.ocsp
    split
    · rename_i t0 hl
      have hu := up_of_lookup h' hl
      have ht := dated_threads h' (s.threads.filter fun p => decide (p.1 ≠ tid)) (hfil _ _)
      dsimp only
      split
      · exact dated_log ht hu _ (by simp) rfl
      · split
        · exact dated_log ht hu _ (by simp) rfl
        · exact ht
    · exact h'
  | other now c =>
    dsimp only
    split
    · unfold St.other
      split
      · exact h'
      · exact dated_close h' s.disk rfl false
    · exact h'

/-- The clock does not run backwards. -/
def Spec.Monotone : Nat → List Op → Prop
  | _, [] => True
  | t, o :: os => t ≤ o.now ∧ Spec.Monotone o.now os

theorem step_clock (s : St) (o : Op) : (step s o).clock = o.now := by
  have hcl : ∀ (s : St) (db : Db) (b : Bool), (s.close db b).clock = s.clock := fun _ _ _ => rfl
  have hsg : ∀ (s : St) (a b c d : Nat) (n : Db → Crt → Db) (k : Commit), (s.sign a b c d n k).clock = s.clock := by
    intro s a b c d n k
    unfold St.sign
    split
    · rfl
    · split
      · rfl
      · dsimp only; split <;> rfl
  unfold step
  generalize hs : ({ s with clock := o.now } : St) = s1
  have h1 : s1.clock = o.now := by rw [← hs]
  rw [← h1]
  clear h1 hs
  cases o with
  | start nk now c =>
    show (s1.start nk now c).clock = _
    unfold St.start
    dsimp only
    split
    · rfl
    · split
      · rfl
      · split <;> rfl
  | issue pub now0 now c =>
    unfold act
    dsimp only
    split
    · exact hsg _ _ _ _ _ _ _
    · rfl
  | begin tid now =>
    unfold act
    dsimp only
    split <;> rfl
  | rotate tid key now c =>
    show (s1.rotate tid key now c).clock = _
    unfold St.rotate
    split
    · dsimp only
      split <;> exact hsg _ _ _ _ _ _ _
    · rfl
  | crl tid u now c =>
    show (s1.crl tid u now c).clock = _
    unfold St.crl
    split
    · dsimp only
      repeat' split
      all_goals rfl
    · rfl
  | ocsp tid now c =>
    show (s1.ocsp tid now c).clock = _
    unfold St.ocsp
    split
    · dsimp only
      repeat' split
      all_goals rfl
    · rfl
  | other now c =>
    unfold act St.other
    dsimp only
    repeat' split
    all_goals rfl

theorem dated_run (ops : List Op) {s : St} (h : Dated s) (hm : Spec.Monotone s.clock ops) : Dated (run ops s) := by
  induction ops generalizing s with
  | nil => exact h
  | cons o ops ih => exact ih (dated_step h o hm.1) (by rw [step_clock]; exact hm.2)

theorem allUnder_split {l1 l2 : List Event} {e : Event} (h : Spec.AllUnder (l1 ++ e :: l2)) : Spec.Under e l2 := by
  induction l1 with
  | nil => exact h.1
  | cons a l ih => exact ih h.2

/-- C128, the CA certificate. Whatever the CA signs, it does with a CA certificate that was valid when the proxy
started, and for at least another five years: in the first five years after the start it is valid. Missing: a proxy
that runs longer than that. -/
theorem ca_current_partial (ops : List Op) (hm : Spec.Monotone 0 ops) (l1 l2 : List Event) (e : Event)
    (h : (run ops {}).log = l1 ++ e :: l2) :
    match e with
    | .ca c t => c.nb ≤ t ∧ t + 157680000000 ≤ c.na
    | e => ∃ c t, Spec.lastCA l2 = some (c, t) ∧ t ≤ Spec.time e ∧
        (Spec.time e ≤ t + 157680000000 → c.nb ≤ Spec.time e ∧ Spec.time e ≤ c.na) := by
  have hu := (dated_run ops (s := {}) ⟨fun _ h => (nomatch h), fun h => (nomatch h), fun _ => rfl, trivial⟩ hm).log
  rw [h] at hu
  have hu := allUnder_split hu
  have key : (∃ c t, Spec.lastCA l2 = some (c, t) ∧ Spec.FreshAt c t ∧ t ≤ Spec.time e) →
      ∃ c t, Spec.lastCA l2 = some (c, t) ∧ t ≤ Spec.time e ∧
        (Spec.time e ≤ t + 157680000000 → c.nb ≤ Spec.time e ∧ Spec.time e ≤ c.na) := by
    rintro ⟨c, t, a, ⟨b, d⟩, f⟩
    exact ⟨c, t, a, f, fun hle => ⟨Nat.le_trans b f, Nat.le_trans hle d⟩⟩
  cases e with
  | ca c t => exact hu
  | signed c t => exact key hu
  | crl l t => exact key hu
  | ocsp c k t => exact key hu
  | panic t => exact key hu

example : Spec.Monotone 0 Ex.ops :=
  ⟨by decide, by decide, by decide, by decide, by decide, by decide, by decide, by decide, by decide, by decide, trivial⟩

/-- C128, violated: a proxy that runs for more than ten years signs certificates with an expired CA certificate; and
every certificate for a user outlives the CA certificate it was signed with, unless both were made in the same
second. -/
theorem ca_expired_violated :
    (∃ ops l1 l2 c x t t0, Spec.RealKeys ops ∧ Spec.Monotone 0 ops ∧
      (run ops {}).log = l1 ++ Event.signed x t :: l2 ∧ Spec.lastCA l2 = some (c, t0) ∧ c.na < x.nb) ∧
    (∃ ops l1 l2 c x t t0, Spec.RealKeys ops ∧ Spec.Monotone 0 ops ∧
      (run ops {}).log = l1 ++ Event.signed x t :: l2 ∧ Spec.lastCA l2 = some (c, t0) ∧ t < t0 + 2000 ∧ c.na < x.na) := by
  refine ⟨⟨[.start 5 1000 .ok, .issue 9 400000000000 400000000000 .ok], [], [.ca ⟨5, 5, 1000, 315360001000⟩ 1000],
      ⟨5, 5, 1000, 315360001000⟩, ⟨9, 5, 400000000000, 715360000000⟩, 400000000000, 1000, ?_, ?_, by decide, rfl, by decide⟩,
    ⟨[.start 5 1000 .ok, .issue 9 2000 2000 .ok], [], [.ca ⟨5, 5, 1000, 315360001000⟩ 1000],
      ⟨5, 5, 1000, 315360001000⟩, ⟨9, 5, 2000, 315360002000⟩, 2000, 1000, ?_, ?_, by decide, rfl, by decide, by decide⟩⟩
  · intro o ho
    simp only [List.mem_cons, List.not_mem_nil, or_false] at ho
    rcases ho with h | h <;> subst h <;> simp
  · exact ⟨by decide, by decide, trivial⟩
  · intro o ho
    simp only [List.mem_cons, List.not_mem_nil, or_false] at ho
    rcases ho with h | h <;> subst h <;> simp
  · exact ⟨by decide, by decide, trivial⟩

end Verif.PkiKeys
