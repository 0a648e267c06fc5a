import Verif.Model.PkiCache

/-!
# C142: revocation lists and OCSP answers are signed with the key of the certificate that comes with them

The parsed delegate certificate is kept in memory, apart from its key. They belong together unless a new
delegate could not be stored and the decoder of the storage reuses objects, in which case answers
cannot be verified until the next rotation, and lists even after a restart.
-/

namespace Verif.PkiCache

/-- The certificate that comes with the list can verify it. -/
def Spec.Verifies (l : Crl) : Prop := l.signer = l.cert.pub

/-- A relying party can verify the answer; lists have the property `P`. -/
def Spec.Fine (P : Crl → Prop) : Event → Prop
  | .crl l => P l
  | .ocsp c k => k = c.pub
  | .panic => True

/-- No new delegate failed to be stored. -/
def Spec.Stored (ops : List Op) : Prop := ∀ o ∈ ops, ∀ key now, o ≠ .rotate key now false

/-- The key belongs to the first certificate, in the file and in memory. -/
structure Paired (s : St) : Prop where
  disk : ∀ c l, s.disk.dcerts = c :: l → c.pub = s.disk.dkey
  mem : ∀ o l, s.mem.dcerts = o :: l → o.raw.pub = s.mem.dkey

/-- Parsed certificates are those of their objects. -/
def Coherent (os : List Obj) : Prop := ∀ o ∈ os, o.cert = none ∨ o.cert = some o.raw

structure Inv (reuse : Bool) (P : Crl → Prop) (s : St) : Prop where
  paired : Paired s
  coherent : Coherent s.mem.dcerts
  sync : reuse = true → s.mem.dcerts.map (·.raw) = s.disk.dcerts
  last : ∀ l, s.disk.lastCrl = some l → P l
  log : ∀ e ∈ s.log, Spec.Fine P e

theorem decode_raw (reuse : Bool) (os : List Obj) (cs : List Crt) : (decode reuse os cs).map (·.raw) = cs := by
  induction cs generalizing os with
  | nil => cases os <;> rfl
  | cons c cs ih => cases os <;> simp [decode, ih]

theorem decode_coherent (reuse : Bool) (os : List Obj) (cs : List Crt) (h : Coherent os)
    (hs : reuse = true → os = [] ∨ os.map (·.raw) = cs) : Coherent (decode reuse os cs) := by
  induction cs generalizing os with
  | nil => intro o ho; cases os <;> cases ho
  | cons c cs ih =>
    cases os with
    | nil =>
      intro o ho
      simp only [decode, List.mem_cons] at ho
      rcases ho with rfl | ho
      · exact .inl rfl
      · exact ih [] h (fun _ => .inl rfl) o ho
    | cons x os =>
      intro o ho
      simp only [decode, List.mem_cons] at ho
      have hx := h x (by simp)
      rcases ho with rfl | ho
      · cases reuse with
        | false => exact .inl rfl
        | true =>
          rcases hs rfl with h0 | h0
          · cases h0
          · simp only [List.map_cons, List.cons.injEq] at h0
            simp only [if_true]
            rw [← h0.1]
            exact hx
      · refine ih os (fun o ho => h o (by simp [ho])) ?_ o ho
        intro hr
        rcases hs hr with h0 | h0
        · cases h0
        · simp only [List.map_cons, List.cons.injEq] at h0
          exact .inr h0.2

theorem head_of_map {os : List Obj} {cs : List Crt} (h : os.map (·.raw) = cs) {o : Obj} {l : List Obj}
    (ho : os = o :: l) : ∃ l', cs = o.raw :: l' := by
  subst ho
  exact ⟨_, h.symm⟩

theorem paired_load {s : St} (h : Paired s) (reuse : Bool) : Paired (s.load reuse) := by
  refine ⟨h.disk, ?_⟩
  intro o l ho
  obtain ⟨l', hl⟩ := head_of_map (decode_raw reuse s.mem.dcerts s.disk.dcerts) ho
  exact h.disk _ _ hl

theorem paired_commit {s : St} (h : Paired s) (ok : Bool) : Paired (s.commit ok) := by
  unfold St.commit
  split
  · refine ⟨?_, h.mem⟩
    intro c l hc
    dsimp only at hc ⊢
    cases hm : s.mem.dcerts with
    | nil => rw [hm] at hc; cases hc
    | cons o os =>
      rw [hm] at hc
      simp only [List.map_cons, List.cons.injEq] at hc
      rw [← hc.1]
      exact h.mem o os hm
  · exact h

theorem parse_raw (o : Obj) : o.parse.2.raw = o.raw := by
  unfold Obj.parse; split <;> rfl

theorem parse_cert (o : Obj) (h : o.cert = none ∨ o.cert = some o.raw) :
    o.parse.1 = o.raw ∧ o.parse.2.cert = some o.raw := by
  unfold Obj.parse
  rcases h with h | h <;> rw [h]
  · exact ⟨rfl, rfl⟩
  · exact ⟨rfl, h⟩

/-- What `first` leaves. -/
theorem first_some {s s' : St} {c : Crt} (h : s.first = some (c, s')) :
    ∃ o os, s.mem.dcerts = o :: os ∧ c = o.parse.1 ∧
      s' = { s with mem := { s.mem with dcerts := o.parse.2 :: os } } := by
  unfold St.first at h
  split at h
  · cases h
  · rename_i o os ho
    simp only [Option.some.injEq, Prod.mk.injEq] at h
    exact ⟨o, os, ho, h.1.symm, h.2.symm⟩

theorem paired_first {s s' : St} {c : Crt} (hp : Paired s) (h : s.first = some (c, s')) : Paired s' := by
  obtain ⟨o, os, ho, -, rfl⟩ := first_some h
  refine ⟨hp.disk, ?_⟩
  intro o' l hl
  simp only [List.cons.injEq] at hl
  rw [← hl.1, parse_raw]
  exact hp.mem o os ho

theorem paired_rotate {s : St} (h : Paired s) (reuse : Bool) (key now : Nat) (ok : Bool) :
    Paired (s.rotate reuse key now ok) := by
  unfold St.rotate
  apply paired_commit
  refine ⟨h.disk, ?_⟩
  intro o l ho
  simp only [List.cons.injEq] at ho
  rw [← ho.1]

theorem paired_log {s : St} (h : Paired s) (l : List Event) : Paired { s with log := l } := ⟨h.disk, h.mem⟩

/-- The file and the memory always have pairs, whatever fails. -/
theorem paired_step {s : St} (h : Paired s) (reuse : Bool) (o : Op) : Paired (step reuse s o) := by
  cases o with
  | start =>
    refine ⟨h.disk, ?_⟩
    intro o l ho
    obtain ⟨l', hl⟩ := head_of_map (decode_raw reuse _ s.disk.dcerts) ho
    exact h.disk _ _ hl
  | rotate key now ok =>
    simp only [step, St.maybeRotate]
    split
    · exact paired_rotate h ..
    · rename_i hf
      split
      · exact paired_rotate (paired_first h hf) ..
      · exact paired_first h hf
  | list now u ok =>
    have hl := paired_load h reuse
    simp only [step, St.list]
    split
    · exact paired_log hl _
    · unfold St.newList
      split
      · exact paired_log hl _
      · rename_i c s1 hf
        have h1 := paired_first hl hf
        have h2 := paired_commit
          (s := { s1 with mem := { s1.mem with lastCrl := some ⟨c, s1.mem.dkey, now + crlPeriod⟩ } })
          ⟨h1.disk, h1.mem⟩ ok
        dsimp only
        split
        · exact paired_log h2 _
        · exact h2
  | ocsp =>
    simp only [step, St.ocsp]
    split
    · exact paired_log h _
    · rename_i hf
      exact paired_log (paired_first h hf) _
  | other ok => exact paired_commit (paired_load h reuse) ok

theorem paired_run (reuse : Bool) (ops : List Op) {s : St} (h : Paired s) : Paired (run reuse ops s) := by
  induction ops generalizing s with
  | nil => exact h
  | cons o ops ih => exact ih (paired_step h reuse o)

theorem inv_load {reuse : Bool} {P : Crl → Prop} {s : St} (h : Inv reuse P s) : Inv reuse P (s.load reuse) :=
  ⟨paired_load h.paired reuse, decode_coherent _ _ _ h.coherent (fun hr => .inr (h.sync hr)),
   fun _ => decode_raw .., h.last, h.log⟩

theorem load_sync (reuse : Bool) (s : St) :
    (s.load reuse).mem.dcerts.map (·.raw) = (s.load reuse).disk.dcerts := decode_raw ..

theorem inv_first {reuse : Bool} {P : Crl → Prop} {s s' : St} {c : Crt} (h : Inv reuse P s)
    (hf : s.first = some (c, s')) : Inv reuse P s' ∧ s'.mem.dkey = c.pub := by
  have hp := paired_first h.paired hf
  obtain ⟨o, os, ho, rfl, rfl⟩ := first_some hf
  have hc := parse_cert o (h.coherent o (by rw [ho]; simp))
  refine ⟨⟨hp, ?_, ?_, h.last, h.log⟩, ?_⟩
  · intro x hx
    rcases List.mem_cons.mp hx with rfl | hx
    · exact .inr (by rw [hc.2, parse_raw])
    · exact h.coherent x (by rw [ho]; simp [hx])
  · intro hr
    have := h.sync hr
    rw [ho] at this
    simp only [List.map_cons, parse_raw]
    exact this
  · show s.mem.dkey = _
    rw [hc.1]
    exact (h.paired.mem o os ho).symm

theorem inv_log {reuse : Bool} {P : Crl → Prop} {s : St} (h : Inv reuse P s) {e : Event} (he : Spec.Fine P e) :
    Inv reuse P { s with log := e :: s.log } := by
  refine ⟨⟨h.paired.disk, h.paired.mem⟩, h.coherent, h.sync, h.last, ?_⟩
  intro x hx
  rcases List.mem_cons.mp hx with rfl | hx
  · exact he
  · exact h.log x hx

theorem inv_rotate {reuse : Bool} {P : Crl → Prop} {s : St} (h : Inv reuse P s) (key now : Nat) (ok : Bool)
    (hok : reuse = false ∨ ok = true) : Inv reuse P (s.rotate reuse key now ok) := by
  have hl := inv_load h
  have hc : Coherent (⟨⟨key, now, now + delegateLife⟩, none⟩ :: (s.load reuse).mem.dcerts.take 1) := by
    intro x hx
    rcases List.mem_cons.mp hx with rfl | hx
    · exact .inl rfl
    · exact hl.coherent x (List.mem_of_mem_take hx)
  refine ⟨paired_rotate h.paired .., ?_, ?_, ?_, ?_⟩
  · unfold St.rotate St.commit
    cases ok <;> exact hc
  · intro hr
    rcases hok with h0 | h0
    · rw [h0] at hr; cases hr
    · subst h0; rfl
  · unfold St.rotate St.commit
    cases ok
    · exact h.last
    · exact h.last
  · unfold St.rotate St.commit
    cases ok <;> exact h.log

/-- A step without a failure keeps everything in order. -/
theorem inv_step {reuse : Bool} {P : Crl → Prop} (hP : ∀ l, Spec.Verifies l → P l) {s : St} (h : Inv reuse P s) (o : Op)
    (ho : reuse = false ∨ ∀ key now, o ≠ .rotate key now false) : Inv reuse P (step reuse s o) := by
  cases o with
  | start =>
    refine ⟨paired_step h.paired reuse .start, ?_, fun _ => decode_raw .., h.last, h.log⟩
    exact decode_coherent reuse [] _ (fun _ hx => nomatch hx) (fun _ => .inl rfl)
  | rotate key now ok =>
    have hok : reuse = false ∨ ok = true := by
      rcases ho with h0 | h0
      · exact .inl h0
      · cases ok
        · exact absurd rfl (h0 key now)
        · exact .inr rfl
    simp only [step, St.maybeRotate]
    split
    · exact inv_rotate h _ _ _ hok
    · rename_i hf
      split
      · exact inv_rotate (inv_first h hf).1 _ _ _ hok
      · exact (inv_first h hf).1
  | list now u ok =>
    have hl := inv_load h
    simp only [step, St.list]
    split
    · rename_i l hr
      apply inv_log hl
      unfold reusable at hr
      split at hr
      · rename_i l' hl'
        split at hr
        · simp only [Option.some.injEq] at hr
          subst hr
          exact h.last _ hl'
        · cases hr
      · cases hr
    · unfold St.newList
      split
      · exact inv_log hl trivial
      · rename_i c s1 hf
        obtain ⟨h1, hk⟩ := inv_first hl hf
        have hs1 : s1.mem.dcerts.map (·.raw) = s1.disk.dcerts := by
          have e := load_sync reuse s
          obtain ⟨o, os, ho, -, rfl⟩ := first_some hf
          rw [ho] at e
          simpa [parse_raw] using e
        have hv : P ⟨c, s1.mem.dkey, now + crlPeriod⟩ := hP _ hk
        cases ok with
        | false =>
          simp only [St.commit, Bool.false_eq_true, if_false]
          exact ⟨⟨h1.paired.disk, h1.paired.mem⟩, h1.coherent, h1.sync, h1.last, h1.log⟩
        | true =>
          simp only [St.commit, if_true]
          refine ⟨?_, h1.coherent, fun _ => rfl, ?_, ?_⟩
          · exact paired_log (paired_commit (s := { s1 with mem := { s1.mem with lastCrl := some ⟨c, s1.mem.dkey, now + crlPeriod⟩ } })
              ⟨h1.paired.disk, h1.paired.mem⟩ true) _
          · intro l hl
            simp only [Option.some.injEq] at hl
            rw [← hl]
            exact hv
          · intro e he
            rcases List.mem_cons.mp he with rfl | he
            · exact hv
            · exact h1.log e he
  | ocsp =>
    simp only [step, St.ocsp]
    split
    · exact inv_log h trivial
    · rename_i hf
      obtain ⟨h1, hk⟩ := inv_first h hf
      exact inv_log h1 hk
  | other ok =>
    have hl := inv_load h
    cases ok with
    | false => exact hl
    | true =>
      refine ⟨paired_commit hl.paired true, hl.coherent, fun _ => rfl, hl.last, hl.log⟩

theorem inv_run {reuse : Bool} {P : Crl → Prop} (hP : ∀ l, Spec.Verifies l → P l) (ops : List Op)
    (ho : reuse = false ∨ Spec.Stored ops) {s : St} (h : Inv reuse P s) : Inv reuse P (run reuse ops s) := by
  induction ops generalizing s with
  | nil => exact h
  | cons o ops ih =>
    refine ih ?_ (inv_step hP h o ?_)
    · exact ho.imp id fun h0 x hx => h0 x (by simp [hx])
    · exact ho.imp id fun h0 => h0 o (by simp)

theorem paired_init : Paired ({} : St) := by
  constructor
  · intro c l h; cases h
  · intro o l h; cases h

/-- **C142**, if every new delegate can be stored, or if what is read from the file is put into new
objects: every revocation list and every OCSP answer can be verified with the certificate that comes with it. -/
theorem verifies_partial (reuse : Bool) (ops : List Op) (h : reuse = false ∨ Spec.Stored ops) :
    ∀ e ∈ (run reuse ops {}).log, Spec.Fine Spec.Verifies e := by
  have h0 : Inv reuse Spec.Verifies ({} : St) := by
    refine ⟨paired_init, ?_, fun _ => rfl, ?_, ?_⟩
    · intro o ho; cases ho
    · intro l hl; cases hl
    · intro e he; cases he
  exact (inv_run (fun _ h => h) ops h h0).log

/-- After a restart everything is in order again, whatever failed before it, except for the last list before
it, which may be served again. -/
theorem restart_repairs (reuse : Bool) (before after : List Op) (h : reuse = false ∨ Spec.Stored after) :
    ∀ e ∈ (run reuse after { step reuse (run reuse before {}) .start with log := [] }).log,
      Spec.Fine (fun l => Spec.Verifies l ∨ (run reuse before {}).disk.lastCrl = some l) e := by
  have hp : Paired (run reuse before {}) :=
    paired_run reuse before paired_init
  refine (inv_run (fun _ h => .inl h) after h ⟨?_, ?_, ?_, ?_, ?_⟩).log
  · exact paired_log (paired_step hp reuse .start) _
  · exact decode_coherent reuse [] _ (fun _ hx => nomatch hx) (fun _ => .inl rfl)
  · exact fun _ => decode_raw ..
  · exact fun l hl => .inr hl
  · exact fun _ h => nomatch h

/-! ## What goes wrong -/

/-- A delegate with key 1; five days and a millisecond later a new one with key 2 cannot be stored; a minute later
another request (which parses the new one), and a certificate is issued. -/
def Ex.ops : List Op :=
  [.start, .rotate 1 0 true, .ocsp, .rotate 2 432000001 false, .rotate 3 432060001 true, .ocsp, .other true]

/-- **C142 violated**: after that, OCSP answers and revocation lists carry the new certificate and are signed with
the old key. Four days later they still are. -/
theorem verifies_violated :
    (run true (Ex.ops ++ [.ocsp]) {}).log.head? = some (.ocsp ⟨2, 432000001, 1296000001⟩ 1) ∧
    (run true (Ex.ops ++ [.list 432120001 true true]) {}).log.head? =
      some (.crl ⟨⟨2, 432000001, 1296000001⟩, 1, 435720001⟩) ∧
    (run true (Ex.ops ++ [.rotate 4 777600000 true, .ocsp]) {}).log.head? =
      some (.ocsp ⟨2, 432000001, 1296000001⟩ 1) ∧
    -- the list is served again after a restart
    (run true (Ex.ops ++ [.list 432120001 true true, .start, .list 432180001 true true]) {}).log.head? =
      some (.crl ⟨⟨2, 432000001, 1296000001⟩, 1, 435720001⟩) := by decide

theorem verifies_violated_general : ∃ ops, ¬ ∀ e ∈ (run true ops {}).log, Spec.Fine Spec.Verifies e := by
  refine ⟨Ex.ops ++ [.ocsp], fun h => ?_⟩
  have := h (.ocsp ⟨2, 432000001, 1296000001⟩ 1) (by decide)
  exact absurd this (by decide : ¬ (1 = 2))

-- the same steps when everything can be stored, and without reused objects
example : (run true [.start, .rotate 1 0 true, .ocsp, .rotate 2 432000001 true, .ocsp, .other true, .ocsp,
    .list 432120001 true true] {}).log = [.crl ⟨⟨2, 432000001, 1296000001⟩, 2, 435720001⟩,
    .ocsp ⟨2, 432000001, 1296000001⟩ 2, .ocsp ⟨2, 432000001, 1296000001⟩ 2, .ocsp ⟨1, 0, 864000000⟩ 1] := by decide
example : (run false (Ex.ops ++ [.ocsp]) {}).log.head? = some (.ocsp ⟨1, 0, 864000000⟩ 1) := by decide
example : Spec.Stored [.start, .rotate 1 0 true, .ocsp] := by
  intro o ho key now
  simp at ho
  rcases ho with rfl | rfl | rfl <;> simp

end Verif.PkiCache
