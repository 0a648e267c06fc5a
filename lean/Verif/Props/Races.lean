import Verif.Model.Races

/-!
# C143: data races

Shared data is to be read and written under the lock that protects it. What follows is that no two
goroutines can be about to use the same data at the same time, one of them to write it, whatever calls
they make; and which functions break the rule.
-/

namespace Verif.Races

open Verif.Locks (Cls Lock)

/-! ## Specification -/

/-- Two goroutines are about to use `x`, and one of them writes it. -/
def Spec.Race (s : State) (x : Loc) : Prop :=
  ∃ i j, i ≠ j ∧ ∃ v w as bs, (s i).todo = .access x v :: as ∧ (s j).todo = .access x w :: bs ∧ (v = true ∨ w = true)

/-- One goroutine rotates the token keys: the loop that `Start` starts (proxy.go:935, tokenmanager.go:117-128). -/
def Spec.OneRotator (prog : Nat → List Call) : Prop := ∀ i, i ≠ 0 → .rotateKeys ∉ prog i

/-- The functions that use this without the lock. -/
def Spec.loose : Call → Loc → Bool
  | .log, .cfg | .acceptTOS, .cfg | .tooMany, .cfg | .revokeUnused, .cfg => true
  | .reconfigure _, .cfgBackends => true
  | .serveH3 be, .http3 be' | .altSvc be, .http3 be' => be = be'
  | .rotateDelegate m, .pkiDb m' | .rotateDelegate m, .parsed m' => m = m'
  | .pong n, .active n' | .ping n, .active n' => n = n'
  | _, _ => false

/-! ## The rule -/

/-- The lock of each piece of data. -/
def guard : Loc → Lock
  | .cfg | .cfgBackends | .serverName | .backends | .pkis | .metrics | .bwLimits => ⟨.proxy, 0⟩
  | .events => ⟨.events, 0⟩
  | .state be | .http3 be => ⟨.backend, be⟩
  | .tracked t => ⟨.tracker, t⟩
  | .conn c => ⟨.conn, c⟩
  | .quicConn c => ⟨.quicConn, c⟩
  | .stream s => ⟨.quicStream, s⟩
  | .slots k => ⟨.counter, k⟩
  | .closed n => ⟨.listener, n⟩
  | .oidcStates p => ⟨.oidcClient, p⟩
  | .oidcCodes s => ⟨.oidcServer, s⟩
  | .samlStates p => ⟨.saml, p⟩
  | .passkeys m => ⟨.passkey, m⟩
  | .nonces m => ⟨.nonces, m⟩
  | .pkiDb m | .parsed m => ⟨.pki, m⟩
  | .sshKey ca => ⟨.sshca, ca⟩
  | .tokenKeys => ⟨.token, 0⟩
  -- there is none
  | .active _ => ⟨.proxy, 0⟩

/-- The goroutine that may read this without the lock, because it is the only one that writes it. -/
def owner : Loc → Option Nat
  | .tokenKeys => some 0
  | _ => none

/-- Whether goroutine `i` may use `x` with the locks that it has. -/
def ok (i : Nat) (held : List (Lock × Bool)) (x : Loc) : Bool → Prop
  | true => (guard x, true) ∈ held ∧ (owner x = none ∨ owner x = some i)
  | false => (∃ e, (guard x, e) ∈ held) ∨ owner x = some i

def Disc (x : Loc) (i : Nat) : List (Lock × Bool) → List Act → Prop
  | _, [] => True
  | held, .lock l e :: as => Disc x i ((l, e) :: held) as
  | held, .unlock l :: as => Disc x i (held.filter fun p => p.1 ≠ l) as
  | held, .access y w :: as => (y = x → ok i held y w) ∧ Disc x i held as

def Fine (x : Loc) (i : Nat) : List (Lock × Bool) → Code → Prop
  | _, .skip => True
  | held, .read y => y = x → ok i held y false
  | held, .write y => y = x → ok i held y true
  | held, .crit l e body => (∀ p ∈ held, p.1 ≠ l) ∧ Fine x i ((l, e) :: held) body
  | held, .seq a b => Fine x i held a ∧ Fine x i held b

theorem disc_compile (x : Loc) (i : Nat) (c : Code) : ∀ (held : List (Lock × Bool)) (rest : List Act),
    Fine x i held c → Disc x i held rest → Disc x i held (compile c ++ rest) := by
  induction c with
  | skip => intro held rest _ h; exact h
  | read y => intro held rest hf h; exact ⟨hf, h⟩
  | write y => intro held rest hf h; exact ⟨hf, h⟩
  | crit l e body ih =>
    intro held rest hf h
    show Disc x i ((l, e) :: held) ((compile body ++ [.unlock l]) ++ rest)
    rw [List.append_assoc]
    refine ih _ _ hf.2 ?_
    show Disc x i (((l, e) :: held).filter fun p => p.1 ≠ l) rest
    have : (((l, e) :: held).filter fun p => p.1 ≠ l) = held := by
      rw [List.filter_cons_of_neg (by simp)]
      exact List.filter_eq_self.2 fun p hp => by simpa using hf.1 p hp
    rw [this]
    exact h
  | seq a b iha ihb =>
    intro held rest hf h
    show Disc x i held ((compile a ++ compile b) ++ rest)
    rw [List.append_assoc]
    exact iha _ _ hf.1 (ihb _ _ hf.2 h)

theorem fine_seqs {x : Loc} {i : Nat} {held : List (Lock × Bool)} {cs : List Code} (h : ∀ c ∈ cs, Fine x i held c) :
    Fine x i held (seqs cs) := by
  induction cs with
  | nil => trivial
  | cons c cs ih => exact ⟨h c (by simp), ih fun d hd => h d (by simp [hd])⟩

theorem fine_map {α : Type} {x : Loc} {i : Nat} {held : List (Lock × Bool)} {f : α → Code} {l : List α}
    (h : ∀ a, Fine x i held (f a)) : Fine x i held (seqs (l.map f)) := by
  refine fine_seqs fun c hc => ?_
  obtain ⟨a, -, rfl⟩ := List.mem_map.1 hc
  exact h a

/-! ## The invariant -/

structure Inv (x : Loc) (s : State) : Prop where
  alone : ∀ i j l e, i ≠ j → (l, true) ∈ (s i).held → (l, e) ∉ (s j).held
  disc : ∀ i, Disc x i (s i).held (s i).todo

theorem set_self (s : State) (i : Nat) (t : Thread) : set s i t i = t := by simp [set]

theorem set_other (s : State) {i j : Nat} (t : Thread) (h : j ≠ i) : set s i t j = s j := by simp [set, h]

theorem inv_sub {x : Loc} {s : State} (h : Inv x s) (i : Nat) (t : Thread) (hsub : ∀ p ∈ t.held, p ∈ (s i).held)
    (hd : Disc x i t.held t.todo) : Inv x (set s i t) := by
  constructor
  · intro a b l e hab ha hb
    by_cases h1 : a = i
    · subst h1
      rw [set_self] at ha
      rw [set_other _ _ (Ne.symm hab)] at hb
      exact h.alone a b l e hab (hsub _ ha) hb
    · rw [set_other _ _ h1] at ha
      by_cases h2 : b = i
      · subst h2
        rw [set_self] at hb
        exact h.alone a b l e hab ha (hsub _ hb)
      · rw [set_other _ _ h2] at hb
        exact h.alone a b l e hab ha hb
  · intro a
    by_cases h1 : a = i
    · subst h1
      rw [set_self]
      exact hd
    · rw [set_other _ _ h1]
      exact h.disc a

theorem inv_step {x : Loc} {s s' : State} (h : Inv x s) (hs : Step s s') : Inv x s' := by
  cases hs with
  | lock i l e as ht hf =>
    have hd := h.disc i
    rw [ht] at hd
    constructor
    · intro a b l' e' hab ha hb
      by_cases h1 : a = i
      · subst h1
        rw [set_self] at ha
        rw [set_other _ _ (Ne.symm hab)] at hb
        rcases List.mem_cons.1 ha with hx | ha
        · cases hx
          exact absurd (hf b (Ne.symm hab) e' hb).1 (by simp)
        · exact h.alone a b l' e' hab ha hb
      · rw [set_other _ _ h1] at ha
        by_cases h2 : b = i
        · subst h2
          rw [set_self] at hb
          rcases List.mem_cons.1 hb with hx | hb
          · cases hx
            exact absurd (hf a h1 true ha).2 (by simp)
          · exact h.alone a b l' e' hab ha hb
        · rw [set_other _ _ h2] at hb
          exact h.alone a b l' e' hab ha hb
    · intro a
      by_cases h1 : a = i
      · subst h1
        rw [set_self]
        exact hd
      · rw [set_other _ _ h1]
        exact h.disc a
  | unlock i l as ht =>
    have hd := h.disc i
    rw [ht] at hd
    exact inv_sub h i _ (fun p hp => (List.mem_filter.1 hp).1) hd
  | access i y w as ht =>
    have hd := h.disc i
    rw [ht] at hd
    exact inv_sub h i _ (fun p hp => hp) hd.2

theorem inv_reach {x : Loc} {s0 s : State} (h0 : Inv x s0) (h : Reach s0 s) : Inv x s := by
  induction h with
  | refl => exact h0
  | step _ hs ih => exact inv_step ih hs

theorem no_race_of_inv {x : Loc} {s : State} (h : Inv x s) : ¬ Spec.Race s x := by
  have key : ∀ i j, i ≠ j → ∀ w as bs, (s i).todo = .access x true :: as → (s j).todo = .access x w :: bs → False := by
    intro i j hij w as bs hi hj
    have h1 := h.disc i
    have h2 := h.disc j
    rw [hi] at h1
    rw [hj] at h2
    obtain ⟨hg, ho⟩ := h1.1 rfl
    have h2 := h2.1 rfl
    cases w with
    | true => exact h.alone i j _ _ hij hg h2.1
    | false =>
      rcases h2 with ⟨e, he⟩ | h2
      · exact h.alone i j _ _ hij hg he
      · rcases ho with ho | ho
        · rw [ho] at h2; cases h2
        · rw [ho] at h2
          exact hij (Option.some.inj h2)
  rintro ⟨i, j, hij, v, w, as, bs, hi, hj, rfl | rfl⟩
  · exact key i j hij w as bs hi hj
  · exact key j i (Ne.symm hij) v bs as hj hi

/-! ## The functions -/

theorem fine_closeBackend {x : Loc} {i : Nat} {held : List (Lock × Bool)} (be : Nat)
    (h : ∀ p ∈ held, p.1.cls ≠ .backend) : Fine x i held (closeBackend be) := by
  refine ⟨fun p hp he => h p hp (by rw [he]), ?_⟩
  simp [Fine, seqs, ok, guard, owner]

theorem fine_slice {x : Loc} {i : Nat} {held : List (Lock × Bool)} (t : Nat)
    (h : ∀ p ∈ held, p.1.cls ≠ .tracker) : Fine x i held (slice t) := by
  refine ⟨fun p hp he => h p hp (by rw [he]), ?_⟩
  simp [Fine, seqs, ok, guard]

theorem fine_value {x : Loc} {i : Nat} {held : List (Lock × Bool)} (k : Nat)
    (h : ∀ p ∈ held, p.1.cls ≠ .counter) : Fine x i held (value k) := by
  refine ⟨fun p hp he => h p hp (by rw [he]), ?_⟩
  simp [Fine, seqs, ok, guard, owner]

theorem fine_stop {x : Loc} {i : Nat} (bes : List Nat) : Fine x i [] (stop bes) := by
  refine ⟨⟨fun p hp => (nomatch hp), ?_⟩, fine_map fun be => fine_closeBackend be fun p hp => (nomatch hp), trivial⟩
  refine ⟨?_, ?_, ?_, fine_slice 0 ?_, trivial⟩ <;> simp [Fine, ok, guard, owner]

theorem fine_code (c : Call) (x : Loc) (i : Nat) (hc : i ≠ 0 → c ≠ .rotateKeys) (hl : Spec.loose c x = false) :
    Fine x i [] (code c) := by
  cases c with
  | reconfigure bes =>
    refine ⟨?_, ?_, ⟨fun p hp => (nomatch hp), ?_⟩, trivial⟩
    · simp [share, Fine, seqs, ok, guard]
    · rintro rfl; cases hl
    · refine ⟨?_, ?_, ?_, ?_, ?_, ?_, fine_map fun be => fine_closeBackend be ?_, ?_, ?_, ?_, ?_, trivial⟩ <;>
        simp [Fine, log, recordEvent, hold, seqs, ok, guard, owner]
  | stop bes => exact fine_stop bes
  | shutdown bes =>
    refine ⟨⟨fun p hp => (nomatch hp), ?_, ?_, fine_map fun be => fine_closeBackend be ?_, trivial⟩,
      ⟨fun p hp => (nomatch hp), fine_slice 0 ?_, trivial⟩, fine_stop bes, trivial⟩ <;>
      simp [Fine, ok, guard]
  | console counters conns streams =>
    refine ⟨fun p hp => (nomatch hp), ?_, fine_map fun k => fine_value k ?_, ?_, fine_slice 0 ?_, fine_map fun k => ?_,
      fine_map fun k => ?_, fine_slice 1 ?_, ?_, ?_, ?_, trivial⟩ <;>
      simp [Fine, log, annotation, annotationQuic, bridgeAddr, hold, seqs, ok, guard]
  | rotateKeys =>
    have hi : i = 0 := Decidable.not_not.1 fun h => hc h rfl
    subst hi
    simp [code, Fine, hold, seqs, ok, guard, owner]
  | log | acceptTOS | tooMany => intro h; subst h; cases hl
  | serveH3 be | altSvc be | pong be | ping be => intro h; subst h; simp [Spec.loose] at hl
  | revokeUnused =>
    refine ⟨?_, ?_, trivial⟩
    · intro h; subst h; cases hl
    · simp [Fine, hold, seqs, ok, guard]
  | rotateDelegate m =>
    refine ⟨?_, ?_, ?_, trivial⟩ <;> · intro h; subst h; simp [Spec.loose] at hl
  | _ => simp [code, Fine, share, hold, seqs, ok, guard, owner, recordEvent, closeBackend, slice, annotation, value,
      bridgeAddr, annotationQuic, annotateQuic, pkiUpdate, log]

theorem disc_calls (x : Loc) (i : Nat) (cs : List Call) (h : ∀ c ∈ cs, Fine x i [] (code c)) :
    Disc x i [] (cs.flatMap fun c => compile (code c)) := by
  induction cs with
  | nil => trivial
  | cons c cs ih =>
    rw [List.flatMap_cons]
    exact disc_compile x i _ _ _ (h c (by simp)) (ih fun d hd => h d (by simp [hd]))

/-- C143, as far as it holds. Whatever calls however many goroutines make, no two of them are ever about to use the same
data, one to write it, unless one of the calls uses it without the lock. -/
theorem no_race_partial (prog : Nat → List Call) (x : Loc) (h1 : Spec.OneRotator prog)
    (hl : ∀ i, ∀ c ∈ prog i, Spec.loose c x = false) {s : State} (hs : Reach (start prog) s) : ¬ Spec.Race s x := by
  refine no_race_of_inv (inv_reach ⟨?_, ?_⟩ hs)
  · intro i j l e _ h
    cases h
  · intro i
    refine disc_calls x i _ fun c hc => fine_code c x i (fun hi he => ?_) (hl i c hc)
    exact h1 i hi (he ▸ hc)

/-- What is used without a lock is one of six things; for everything else there is no race at all. -/
theorem no_race_elsewhere (prog : Nat → List Call) (x : Loc) (h1 : Spec.OneRotator prog)
    (hx : x ≠ .cfg ∧ x ≠ .cfgBackends ∧ (∀ be, x ≠ .http3 be) ∧ (∀ m, x ≠ .pkiDb m) ∧ (∀ m, x ≠ .parsed m) ∧
      ∀ n, x ≠ .active n)
    {s : State} (hs : Reach (start prog) s) : ¬ Spec.Race s x := by
  refine no_race_partial prog x h1 (fun i c _ => ?_) hs
  obtain ⟨h2, h3, h4, h5, h6, h7⟩ := hx
  cases x <;> first
    | rfl
    | exact absurd rfl h2
    | exact absurd rfl h3
    | exact absurd rfl (h4 _)
    | exact absurd rfl (h5 _)
    | exact absurd rfl (h6 _)
    | exact absurd rfl (h7 _)
    | (cases c <;> rfl)

/-! ## The races -/

/-- The locks after these steps. -/
def after (held : List (Lock × Bool)) : List Act → List (Lock × Bool)
  | [] => held
  | .lock l e :: as => after ((l, e) :: held) as
  | .unlock l :: as => after (held.filter fun p => p.1 ≠ l) as
  | .access _ _ :: as => after held as

theorem reach_trans {s0 s1 s2 : State} (h1 : Reach s0 s1) (h2 : Reach s1 s2) : Reach s0 s2 := by
  induction h2 with
  | refl => exact h1
  | step _ hs ih => exact ih.step hs

theorem run_alone (j : Nat) (pre : List Act) : ∀ (s : State) (rest : List Act), (∀ i, i ≠ j → (s i).held = []) →
    (s j).todo = pre ++ rest → ∃ s', Reach s s' ∧ s' j = ⟨rest, after (s j).held pre⟩ ∧ ∀ i, i ≠ j → s' i = s i := by
  induction pre with
  | nil =>
    intro s rest _ ht
    refine ⟨s, .refl, ?_, fun _ _ => rfl⟩
    cases hsj : s j
    rw [hsj] at ht
    exact congrArg (Thread.mk · _) ht
  | cons a pre ih =>
    intro s rest ho ht
    have next : ∀ t, Step s (set s j t) → t.todo = pre ++ rest → after (s j).held (a :: pre) = after t.held pre →
        ∃ s', Reach s s' ∧ s' j = ⟨rest, after (s j).held (a :: pre)⟩ ∧ ∀ i, i ≠ j → s' i = s i := by
      intro t hst htt hh
      obtain ⟨s', h1, h2, h3⟩ := ih (set s j t) rest (fun i hi => by rw [set_other _ _ hi]; exact ho i hi)
        (by rw [set_self]; exact htt)
      refine ⟨s', reach_trans (.step .refl hst) h1, ?_, fun i hi => by rw [h3 i hi, set_other _ _ hi]⟩
      rw [h2, set_self, hh]
    cases a with
    | lock l e =>
      refine next _ (.lock j l e (pre ++ rest) ht fun i hi e' he => ?_) rfl rfl
      rw [ho i hi] at he
      cases he
    | unlock l => exact next _ (.unlock j l (pre ++ rest) ht) rfl rfl
    | access y w => exact next _ (.access j y w (pre ++ rest) ht) rfl rfl

/-- Two goroutines with a call each. -/
def pair (c d : Call) : Nat → List Call := fun i => if i = 0 then [c] else if i = 1 then [d] else []

theorem race_pair {c d : Call} {x : Loc} {v w : Bool} {p q as bs : List Act}
    (hc : compile (code c) = p ++ .access x v :: as) (hd : compile (code d) = q ++ .access x w :: bs)
    (hp : after [] p = []) (hw : v = true ∨ w = true) : ∃ s, Reach (start (pair c d)) s ∧ Spec.Race s x := by
  have h0 : start (pair c d) 0 = ⟨p ++ .access x v :: as, []⟩ := by
    simp [start, pair, hc]
  have h1 : start (pair c d) 1 = ⟨q ++ .access x w :: bs, []⟩ := by
    simp [start, pair, hd]
  obtain ⟨s1, r1, e1, o1⟩ := run_alone 0 p (start (pair c d)) (.access x v :: as) (fun _ _ => rfl) (by rw [h0])
  rw [h0] at e1
  dsimp only at e1
  rw [hp] at e1
  obtain ⟨s2, r2, e2, o2⟩ := run_alone 1 q s1 (.access x w :: bs) (by
    intro i hi
    by_cases h : i = 0
    · rw [h, e1]
    · rw [o1 i h]; rfl) (by rw [o1 1 (by decide), h1])
  refine ⟨s2, reach_trans r1 r2, 0, 1, by decide, v, w, as, bs, ?_, ?_, hw⟩
  · rw [o2 0 (by decide), e1]
  · rw [e2]

/-- C143 is violated: each of the calls that use data without the lock does race with another call, one that
reconfigures, stops, or changes the PKI, or for WebSockets the other goroutine of the connection. -/
theorem no_race_violated (c : Call) (x : Loc) (h : Spec.loose c x = true) :
    ∃ d s, Reach (start (pair c d)) s ∧ Spec.Race s x := by
  have cfg : ∀ bs, compile (code c) = [] ++ .access .cfg false :: bs →
      ∃ d s, Reach (start (pair c d)) s ∧ Spec.Race s .cfg := fun bs hc =>
    ⟨.reconfigure [], race_pair (q := (compile (code (.reconfigure []))).dropLast.dropLast) (bs := [.unlock ⟨.proxy, 0⟩])
      hc (by rfl) rfl (.inr rfl)⟩
  have http3 : ∀ be, compile (code c) = [] ++ .access (.http3 be) false :: [] →
      ∃ d s, Reach (start (pair c d)) s ∧ Spec.Race s (.http3 be) := fun be hc =>
    ⟨.closeBackend be, race_pair (q := [.lock ⟨.backend, be⟩ true, .access (.state be) false, .access (.state be) true,
      .access (.http3 be) false]) (bs := [.unlock ⟨.backend, be⟩]) hc (by rfl) rfl (.inr rfl)⟩
  cases c <;> cases x <;> try (simp [Spec.loose] at h; done)
  · exact cfg [] rfl
  · rename_i be be'
    have : be = be' := by simpa [Spec.loose] using h
    subst this
    exact http3 be rfl
  · rename_i be be'
    have : be = be' := by simpa [Spec.loose] using h
    subst this
    exact http3 be rfl
  · exact cfg [] rfl
  · exact cfg [] rfl
  · exact cfg _ rfl
  · refine ⟨.stop [], race_pair (p := [.lock ⟨.proxy, 0⟩ false, .access .cfg false, .unlock ⟨.proxy, 0⟩])
      (q := [.lock ⟨.proxy, 0⟩ true, .access .cfg false, .access .cfgBackends false]) rfl (by rfl) (by rfl) (.inr rfl)⟩
  · rename_i m m'
    have : m = m' := by simpa [Spec.loose] using h
    subst this
    exact ⟨.pkiUpdate m, race_pair (p := []) (q := [.lock ⟨.pki, m⟩ true, .access (.pkiDb m) false]) rfl (by rfl) rfl
      (.inr rfl)⟩
  · rename_i m m'
    have : m = m' := by simpa [Spec.loose] using h
    subst this
    -- two requests for the revocation list
    exact ⟨.rotateDelegate m, race_pair (p := [.access (.pkiDb m) false, .access (.parsed m) false])
      (q := [.access (.pkiDb m) false]) rfl (by rfl) rfl (.inl rfl)⟩
  · rename_i n n'
    have : n = n' := by simpa [Spec.loose] using h
    subst this
    exact ⟨.ping n, race_pair (p := []) (q := []) rfl rfl rfl (.inl rfl)⟩
  · rename_i n n'
    have : n = n' := by simpa [Spec.loose] using h
    subst this
    exact ⟨.pong n, race_pair (p := []) (q := []) rfl rfl rfl (.inr rfl)⟩

/-! ## Examples -/

-- logging a connection while the configuration is replaced
example : ∃ s, Reach (start (pair .log (.reconfigure []))) s ∧ Spec.Race s .cfg :=
  race_pair (p := []) (q := (compile (code (.reconfigure []))).dropLast.dropLast) (bs := [.unlock ⟨.proxy, 0⟩]) (v := false)
    rfl (by rfl) rfl (.inr rfl)
-- a program for which there is no race on the list of connections
example {s : State} (h : Reach (start (pair (.track 0) (.console [1] [2] [3]))) s) : ¬ Spec.Race s (.tracked 0) :=
  no_race_elsewhere _ _ (fun i _ hx => by
    unfold pair at hx
    split at hx
    · simp at hx
    · split at hx <;> simp at hx) (by simp) h
example : Spec.loose (.rotateDelegate 3) (.pkiDb 3) = true ∧ Spec.loose (.rotateDelegate 3) (.pkiDb 4) = false := by decide
-- the loop that rotates the keys, and a login
example : Spec.OneRotator (pair .rotateKeys .useKeys) := by
  intro i hi hx
  unfold pair at hx
  rw [if_neg hi] at hx
  split at hx <;> simp at hx

end Verif.Races
