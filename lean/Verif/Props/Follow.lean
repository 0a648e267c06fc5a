import Verif.Model.Follow

/-!
# C151: The proxy follows its files

Statements: what is in force was in the files, as a whole, at some moment; a configuration that is valid and stays
in the file is in force half a minute later; a file that cannot be read or is not valid changes nothing; and the
certificates that are trusted are those that the files say.
-/

namespace Verif.Follow

namespace Spec

/-- The rounds between two moments: each begins at most `D` seconds after the one before was over, and takes at
most `P` seconds. -/
def Regular (D P now stop : Nat) : List Round → Prop
  | [] => now ≤ stop ∧ stop < now + D
  | t :: ts => now ≤ t.read ∧ t.read ≤ now + D ∧ t.read ≤ t.take ∧ t.take ≤ t.read + P ∧ Regular D P t.take stop ts

/-- The files do not change from `a` to `stop`. -/
def Still (w : Nat → Files) (a stop : Nat) : Prop := ∀ t, a ≤ t → t ≤ stop → w t = w stop

end Spec

theorem loop_snoc (e : Env) (w : Nat → Files) (r : Running) (ts : List Round) (t : Round) :
    loop e w r (ts ++ [t]) = round e w (loop e w r ts) t := by
  simp [loop, List.foldl_append]

theorem read_loads {e : Env} {fs : Files} {c : Cfg} (h : readConfig e fs = some c) :
    ∃ b, loadAll e fs c.cas = some b := by
  unfold readConfig at h
  split at h
  · cases h
  · split at h
    · cases h
    · split at h
      · rename_i hb
        cases h
        exact Option.isSome_iff_exists.1 hb
      · cases h

/-- C151. Whatever the files went through, the configuration in force is one that was in the file, and the
certificates that are trusted are those that its files had at one moment just after. -/
theorem in_force (e : Env) (w : Nat → Files) (t0 : Round) (r : Running) (h0 : start e w t0 = some r)
    (ts : List Round) :
    ∃ t ∈ t0 :: ts, readConfig e (w t.read) = some (loop e w r ts).cfg ∧
      loadAll e (w t.take) (loop e w r ts).cfg.cas = some (loop e w r ts).trusted := by
  have hstart : readConfig e (w t0.read) = some r.cfg ∧ loadAll e (w t0.take) r.cfg.cas = some r.trusted := by
    unfold start at h0
    split at h0
    · cases h0
    · rename_i c hc
      cases hl : loadAll e (w t0.take) c.cas with
      | none => rw [hl] at h0; cases h0
      | some b =>
        rw [hl] at h0
        cases h0
        exact ⟨hc, hl⟩
  have key : ∀ n (ts : List Round), ts.length = n → ∃ t ∈ t0 :: ts,
      readConfig e (w t.read) = some (loop e w r ts).cfg ∧
      loadAll e (w t.take) (loop e w r ts).cfg.cas = some (loop e w r ts).trusted := by
    intro n
    induction n with
    | zero =>
      intro ts hn
      have : ts = [] := List.length_eq_zero_iff.1 hn
      subst this
      exact ⟨t0, List.mem_cons_self, hstart⟩
    | succ n ih =>
      intro ts hn
      obtain ⟨t, us, rfl⟩ : ∃ t us, ts = us ++ [t] := by
        have hne : ts ≠ [] := by rintro rfl; simp at hn
        exact ⟨ts.getLast hne, ts.dropLast, (List.dropLast_concat_getLast hne).symm⟩
      rw [loop_snoc]
      obtain ⟨t', hm, h1, h2⟩ := ih us (by simpa using hn)
      have old : ∃ x ∈ t0 :: (us ++ [t]), readConfig e (w x.read) = some (loop e w r us).cfg ∧
          loadAll e (w x.take) (loop e w r us).cfg.cas = some (loop e w r us).trusted := by
        refine ⟨t', ?_, h1, h2⟩
        rw [← List.cons_append]
        exact List.mem_append_left _ hm
      unfold round
      split
      · exact old
      · rename_i c hc
        unfold reconfigure
        split
        · exact old
        · split
          · exact old
          · rename_i b hb
            exact ⟨t, by simp, hc, hb⟩
  exact key _ ts rfl

/-- C151. A file that is missing, or that is not valid, changes nothing. -/
theorem invalid_kept (e : Env) (w : Nat → Files) (r : Running) (ts : List Round)
    (h : ∀ t ∈ ts, readConfig e (w t.read) = none) : loop e w r ts = r := by
  unfold loop
  induction ts with
  | nil => rfl
  | cons t ts ih =>
    rw [List.foldl_cons]
    have : round e w r t = r := by simp [round, h t List.mem_cons_self]
    rw [this]
    exact ih (fun x hx => h x (List.mem_cons_of_mem _ hx))

theorem regular_last {D P now stop : Nat} {ts : List Round} (h : Spec.Regular D P now stop ts) (a : Nat)
    (hnow : now ≤ a + P) (ha : a + P + D ≤ stop) :
    ∃ us t, ts = us ++ [t] ∧ a ≤ t.read ∧ t.read ≤ t.take ∧ t.take ≤ stop := by
  have key : ∀ (ts : List Round) (now : Nat), Spec.Regular D P now stop ts →
      (stop < now + D ∧ now ≤ stop ∧ ts = []) ∨
      ∃ us t, ts = us ++ [t] ∧ t.read ≤ t.take ∧ t.take ≤ t.read + P ∧ t.take ≤ stop ∧ stop < t.take + D := by
    intro ts
    induction ts with
    | nil => intro now h; exact .inl ⟨h.2, h.1, rfl⟩
    | cons t ts ih =>
      intro now h
      obtain ⟨-, -, h3, h4, h5⟩ := h
      right
      rcases ih t.take h5 with ⟨k1, k2, rfl⟩ | ⟨us, t', rfl, k⟩
      · exact ⟨[], t, rfl, h3, h4, k2, k1⟩
      · exact ⟨t :: us, t', rfl, k⟩
  rcases key ts now h with ⟨h1, -, -⟩ | ⟨us, t, rfl, h1, h2, h3, h4⟩
  · omega
  · exact ⟨us, t, rfl, by omega, h1, h3⟩

/-- C151. A valid configuration whose files do not change is in force after the time between two rounds and that of
one: half a minute, and what reading and reconfiguring takes. -/
theorem picked_up (e : Env) (w : Nat → Files) (D P a stop : Nat) (r : Running) (ts : List Round)
    (hr : Spec.Regular D P a stop ts) (hs : Spec.Still w a stop) (hlong : a + P + D ≤ stop) (c : Cfg)
    (hc : readConfig e (w stop) = some c) : (loop e w r ts).cfg = c := by
  obtain ⟨us, t, rfl, h1, h2, h3⟩ := regular_last hr a (by omega) hlong
  rw [loop_snoc]
  have e1 : w t.read = w stop := hs _ h1 (by omega)
  have e2 : w t.take = w stop := hs _ (by omega) h3
  unfold round
  rw [e1, e2, hc]
  dsimp only
  unfold reconfigure
  split
  · rename_i he
    exact he.symm
  · obtain ⟨b, hb⟩ := read_loads hc
    rw [hb]

/-- C151 (partial: the configuration itself has changed). Then the certificates that are trusted are those of the
files. -/
theorem trust_taken_partial (e : Env) (w : Nat → Files) (r : Running) (t : Round) (c : Cfg)
    (hc : readConfig e (w t.read) = some c) (hne : c ≠ r.cfg) (b : List Str)
    (hb : loadAll e (w t.take) c.cas = some b) : round e w r t = ⟨c, b⟩ := by
  simp [round, hc, reconfigure, hne, hb]

/-- C151, the missing part. As long as the text of the configuration is the same, the proxy goes on to trust the
certificates it has loaded when it changed, whatever becomes of their files, for however long: a certificate
authority that is taken out of its file is still trusted, and a new one is not. -/
theorem trust_violated (e : Env) (w : Nat → Files) (r : Running) (ts : List Round)
    (h : ∀ t ∈ ts, readConfig e (w t.read) = none ∨ readConfig e (w t.read) = some r.cfg) :
    (loop e w r ts).trusted = r.trusted := by
  have : loop e w r ts = r := by
    unfold loop
    induction ts with
    | nil => rfl
    | cons t ts ih =>
      rw [List.foldl_cons]
      have : round e w r t = r := by
        rcases h t List.mem_cons_self with h | h
        · simp [round, h]
        · simp [round, h, reconfigure]
      rw [this]
      exact ih (fun x hx => h x (List.mem_cons_of_mem _ hx))
  rw [this]

/-- C151 (partial: the certificates are in the configuration and not in files). Then what is trusted is always what
the configuration in force says. -/
theorem trust_inline_partial (e : Env) (w : Nat → Files) (t0 : Round) (r : Running)
    (h0 : start e w t0 = some r) (ts : List Round)
    (hin : ∀ s ∈ (loop e w r ts).cfg.cas, s.head? ≠ some '/') :
    (loop e w r ts).trusted = (loop e w r ts).cfg.cas := by
  obtain ⟨t, -, -, hl⟩ := in_force e w t0 r h0 ts
  generalize (loop e w r ts).cfg.cas = cas at hin hl
  generalize (loop e w r ts).trusted = tr at hl
  induction cas generalizing tr with
  | nil => simp only [loadAll, Option.some.injEq] at hl; exact hl.symm
  | cons s cas ih =>
    have hs := hin s List.mem_cons_self
    have hcont : content (w t.take) s = some s := by
      cases s with
      | nil => rfl
      | cons x s =>
        unfold content
        split
        · rename_i heq
          rw [List.cons.injEq] at heq
          simp [heq.1] at hs
        · rfl
    unfold loadAll load at hl
    rw [hcont] at hl
    dsimp only at hl
    by_cases hp : e.pem s = true
    · rw [if_pos hp] at hl
      dsimp only at hl
      cases hr : loadAll e (w t.take) cas with
      | none => rw [hr] at hl; cases hl
      | some b =>
        rw [hr] at hl
        simp only [Option.map_some, Option.some.injEq] at hl
        rw [← hl, ih (fun x hx => hin x (List.mem_cons_of_mem _ hx)) b hr]
    · rw [if_neg hp] at hl
      cases hl

/-! ## Examples -/

namespace Ex

/-- A configuration is a digit and a list of one entry; certificates begin with 'C'. -/
def env : Env where
  file := "/cfg".toList
  parse
    | '1' :: s => some ⟨1, [s]⟩
    | '2' :: s => some ⟨2, [s]⟩
    | _ => none
  pem s := s.head? = some 'C'

/-- The certificate in a file changes after 100 seconds, the configuration after 200. -/
def files (t : Nat) : Files := fun s =>
  if s = "/cfg".toList then some (if t < 200 then "1/ca".toList else if t < 300 then "?".toList else "2CX".toList)
  else if s = "/ca".toList then some (if t < 100 then "CA".toList else "CB".toList)
  else none

def r0 : Running := ⟨⟨1, ["/ca".toList]⟩, ["CA".toList]⟩

example : start env files ⟨0, 0⟩ = some r0 := by decide +kernel

/-- A minute after the change of the certificate nothing has changed. -/
example : loop env files r0 [⟨30, 31⟩, ⟨61, 61⟩, ⟨91, 91⟩, ⟨121, 121⟩, ⟨151, 152⟩] = r0 ∧
    loadAll env (files 152) r0.cfg.cas = some ["CB".toList] := by decide +kernel

/-- The configuration is broken, then mended, and then in force. -/
example : loop env files r0 [⟨210, 210⟩, ⟨240, 240⟩] = r0 ∧
    loop env files r0 [⟨210, 210⟩, ⟨240, 240⟩, ⟨310, 311⟩] = ⟨⟨2, ["CX".toList]⟩, ["CX".toList]⟩ := by
  decide +kernel

/-- The hypotheses of `picked_up`. -/
example : Spec.Regular 31 2 300 340 [⟨310, 311⟩] ∧ Spec.Still files 300 340 ∧ 300 + 2 + 31 ≤ 340 ∧
    readConfig env (files 340) = some ⟨2, ["CX".toList]⟩ := by
  refine ⟨by simp [Spec.Regular], ?_, by decide, by decide +kernel⟩
  intro t h1 h2
  have a1 : ¬ t < 200 := by omega
  have a2 : ¬ t < 300 := by omega
  have a3 : ¬ t < 100 := by omega
  funext s
  unfold files
  simp [a1, a2, a3]

end Ex

end Verif.Follow
