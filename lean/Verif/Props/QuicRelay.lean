import Verif.Model.QuicRelay
/-
C121: a QUIC connection and the connection to its server end together. C122: the settings about who ends a
connection apply to the client and to the server, whoever opened the stream.
-/
namespace Verif.QuicRelay

/-! ## Specification -/

/-- The proxy has nothing to do. -/
def Spec.Quiet (c : Relay.Cfg) (s : St) : Prop := ∀ o, o.internal = true → s.step c o = s

/-- A stream on which the server has not done anything that ends the copying from it, and its time is not up. -/
def Spec.WaitsForServer (s : St) (x : Strm) : Prop :=
  x.phase = .relaying ∧ x.copying .server = true ∧ s.gone .server = false ∧ x.ended .server = none ∧
    x.unread .server = false ∧ x.orderly .client = false

def Spec.Counted (x : Strm) : Prop := x.uni = false ∨ x.opener = .client

/-! ## Lists -/

theorem mem_upd {l : List α} {k : Nat} {f : α → α} {y : α} (h : y ∈ upd l k f) : y ∈ l ∨ ∃ x ∈ l, y = f x := by
  induction l generalizing k with
  | nil => cases h
  | cons a l ih =>
    cases k with
    | zero =>
      rcases List.mem_cons.1 h with h | h
      · exact .inr ⟨a, by simp, h⟩
      · exact .inl (by simp [h])
    | succ k =>
      rcases List.mem_cons.1 h with h | h
      · exact .inl (by simp [h])
      · rcases ih h with h | ⟨x, hx, h⟩
        · exact .inl (by simp [h])
        · exact .inr ⟨x, by simp [hx], h⟩

theorem upd_fixed {l : List α} {f : α → α} (h : ∀ k, upd l k f = l) {x : α} (hx : x ∈ l) : f x = x := by
  induction l with
  | nil => cases hx
  | cons a l ih =>
    rcases List.mem_cons.1 hx with rfl | hx
    · have := h 0
      exact (List.cons.inj this).1
    · exact ih (fun k => (List.cons.inj (h (k + 1))).2) hx

@[simp] theorem other_other (w : Who) : w.other.other = w := by cases w <;> rfl
theorem other_ne (w : Who) : w.other ≠ w := by cases w <;> simp [Who.other]

@[simp] theorem put_same (f : Who → α) (w : Who) (a : α) : put f w a w = a := by simp [put]
theorem put_other (f : Who → α) (w : Who) (a : α) : put f w a w.other = f w.other := by simp [put, other_ne]

theorem St.ext' {a b : St} (h1 : a.running = b.running) (h2 : a.gone = b.gone) (h3 : a.appErr = b.appErr)
    (h4 : a.streams = b.streams) (h5 : a.returned = b.returned) (h6 : a.closed = b.closed) : a = b := by
  cases a; cases b; simp_all

/-! ## The invariant -/

/-- The copying directions of a stream. -/
def StrmOk (x : Strm) : Prop :=
  (x.phase = .opening → x.copying .client = true ∧ x.copying .server = true) ∧
  (x.phase = .relaying → x.copying .client = true ∨ x.copying .server = true) ∧
  (x.phase = .over → x.copying .client = false ∧ x.copying .server = false)

structure Inv (s : St) : Prop where
  strm : ∀ x ∈ s.streams, StrmOk x
  loops : ∀ l, l ≠ .datagram → ∀ w, s.running l w = false → s.gone w = true ∨ s.gone .client = true
  returned : s.returned = true → s.idle = true ∧ s.gone .client = true
  closed : ∀ w, s.closed w = true ↔ s.returned = true

theorem strmOk_new (w : Who) (u : Bool) : StrmOk (.new w u) :=
  ⟨fun _ => ⟨rfl, rfl⟩, (fun h => by cases h), (fun h => by cases h)⟩

theorem strmOk_tryOpen {x : Strm} (h : StrmOk x) (g a : Who → Bool) : StrmOk (x.tryOpen g a) := by
  unfold Strm.tryOpen
  split
  · rename_i hp
    split
    · exact ⟨(fun h => by cases h), (fun h => by cases h), (fun h => by cases h)⟩
    · exact ⟨(fun h => by cases h), fun _ => .inl (h.1 hp).1, (fun h => by cases h)⟩
  · exact h

theorem strmOk_endDir {x : Strm} (h : StrmOk x) (c : Relay.Cfg) (g : Who → Bool) (w : Who) : StrmOk (x.endDir c g w) := by
  unfold Strm.endDir
  split
  · dsimp only
    refine ⟨?_, ?_, ?_⟩
    · dsimp only; split <;> intro h <;> cases h
    · dsimp only
      split
      · rename_i ho
        intro _
        cases w
        · exact .inr (by simpa [put, Who.other] using ho)
        · exact .inl (by simpa [put, Who.other] using ho)
      · intro h; cases h
    · dsimp only
      split
      · intro h; cases h
      · rename_i ho
        intro _
        cases w
        · exact ⟨by simp, by simpa [put, Who.other] using ho⟩
        · exact ⟨by simpa [put, Who.other] using ho, by simp⟩
  · exact h

/-- A stream that is over or has failed stays so. -/
def settled (x : Strm) : Prop := x.phase = .over ∨ x.phase = .failed

theorem idle_iff (s : St) : s.idle = true ↔ (∀ l w, s.running l w = false) ∧ ∀ x ∈ s.streams, x.tracked = true → settled x := by
  unfold St.idle settled
  simp only [Bool.and_eq_true, List.all_eq_true]
  constructor
  · rintro ⟨h1, h2⟩
    refine ⟨?_, ?_⟩
    · intro l w
      have := h1 l (by cases l <;> simp)
      simp at this
      cases w
      · exact this.1
      · exact this.2
    · intro x hx ht
      have := h2 x hx
      simp [ht] at this
      exact this
  · rintro ⟨h1, h2⟩
    refine ⟨?_, ?_⟩
    · intro l _; simp [h1]
    · intro x hx
      cases ht : x.tracked with
      | false => simp
      | true => simpa using h2 x hx ht

theorem tryOpen_settled {x : Strm} (g a : Who → Bool) (h : settled x) : x.tryOpen g a = x := by
  unfold Strm.tryOpen
  rw [if_neg]
  rcases h with h | h <;> rw [h] <;> simp

theorem endDir_settled {x : Strm} (c : Relay.Cfg) (g : Who → Bool) (w : Who) (h : settled x) : x.endDir c g w = x := by
  unfold Strm.endDir
  rw [if_neg]
  rcases h with h | h <;> rw [h] <;> simp

theorem endDir_fixed (x : Strm) (c : Relay.Cfg) (g : Who → Bool) (w : Who) :
    (x.endDir c g w).uni = x.uni ∧ (x.endDir c g w).opener = x.opener := by
  unfold Strm.endDir; split <;> exact ⟨rfl, rfl⟩

theorem tryOpen_fixed (x : Strm) (g a : Who → Bool) :
    (x.tryOpen g a).uni = x.uni ∧ (x.tryOpen g a).opener = x.opener := by
  unfold Strm.tryOpen
  split
  · split <;> exact ⟨rfl, rfl⟩
  · exact ⟨rfl, rfl⟩

/-- Changes to one stream. -/
theorem inv_upd {s : St} (h : Inv s) (k : Nat) (f : Strm → Strm) (h1 : ∀ x, StrmOk x → StrmOk (f x))
    (h2 : ∀ x, settled x → settled (f x)) (h3 : ∀ x, (f x).tracked = x.tracked) :
    Inv { s with streams := upd s.streams k f } := by
  refine ⟨?_, h.loops, ?_, h.closed⟩
  · intro y hy
    rcases mem_upd hy with hy | ⟨x, hx, rfl⟩
    · exact h.strm y hy
    · exact h1 x (h.strm x hx)
  · intro hr
    obtain ⟨hi, hg⟩ := h.returned hr
    refine ⟨?_, hg⟩
    rw [idle_iff] at hi ⊢
    refine ⟨hi.1, ?_⟩
    intro y hy ht
    rcases mem_upd hy with hy | ⟨x, hx, rfl⟩
    · exact hi.2 y hy ht
    · rw [h3] at ht
      exact h2 x (hi.2 x hx ht)

theorem inv_init (d : Bool) : Inv (init d) where
  strm x h := by cases h
  loops l hl w h := by
    cases l
    · cases h
    · cases h
    · exact absurd rfl hl
  returned h := by cases h
  closed w := ⟨(fun h => by cases h), (fun h => by cases h)⟩

theorem inv_step {c : Relay.Cfg} {s : St} (h : Inv s) (o : Op) : Inv (s.step c o) := by
  cases o with
  | goes w app =>
    unfold St.step
    dsimp only
    split
    · exact h
    · refine ⟨h.strm, ?_, ?_, h.closed⟩
      · intro l hl w' hr
        have := h.loops l hl w' hr
        unfold put
        dsimp only
        rcases this with h' | h'
        · left; split
          · rfl
          · exact h'
        · right; split
          · rfl
          · exact h'
      · intro hr
        obtain ⟨h1, h2⟩ := h.returned hr
        refine ⟨h1, ?_⟩
        unfold put
        dsimp only
        split
        · rfl
        · exact h2
  | opens w uni =>
    unfold St.step
    dsimp only
    split
    · rename_i hc
      refine ⟨?_, h.loops, ?_, h.closed⟩
      · intro x hx
        rcases List.mem_append.1 hx with hx | hx
        · exact h.strm x hx
        · rw [List.mem_singleton.1 hx]; exact strmOk_new _ _
      · intro hr
        have := (h.returned hr).2
        rw [hc.2.2] at this; cases this
    · exact h
  | ends k w o =>
    refine inv_upd h k _ ?_ ?_ ?_
    · intro x hx; split
      · exact hx
      · exact hx
    · intro x hx; split
      · exact hx
      · exact hx
    · intro x; split <;> rfl
  | sends k w =>
    refine inv_upd h k _ ?_ ?_ ?_
    · intro x hx; split
      · exact hx
      · exact hx
    · intro x hx; split
      · exact hx
      · exact hx
    · intro x; split <;> rfl
  | loopEnds l w =>
    unfold St.step
    dsimp only
    split
    · rename_i hg
      refine ⟨h.strm, ?_, ?_, h.closed⟩
      · intro l' hl w' hr
        dsimp only at hr
        split at hr
        · rename_i he
          obtain ⟨rfl, rfl⟩ := he
          exact hg
        · exact h.loops l' hl w' hr
      · intro hr
        obtain ⟨h1, h2⟩ := h.returned hr
        refine ⟨?_, h2⟩
        rw [idle_iff] at h1 ⊢
        refine ⟨?_, h1.2⟩
        intro l' w'
        dsimp only
        split
        · rfl
        · exact h1.1 l' w'
    · exact h
  | tryOpen k =>
    refine inv_upd h k _ (fun x hx => strmOk_tryOpen hx _ _) (fun x hx => ?_) (fun x => ?_)
    · rw [tryOpen_settled _ _ hx]; exact hx
    · unfold Strm.tracked; rw [(tryOpen_fixed x _ _).1, (tryOpen_fixed x _ _).2]
  | endDir k w =>
    refine inv_upd h k _ (fun x hx => strmOk_endDir hx _ _ _) (fun x hx => ?_) (fun x => ?_)
    · rw [endDir_settled _ _ _ hx]; exact hx
    · unfold Strm.tracked; rw [(endDir_fixed x _ _ _).1, (endDir_fixed x _ _ _).2]
  | finish =>
    unfold St.step
    dsimp only
    split
    · rename_i hi
      exact ⟨h.strm, fun _ _ _ _ => .inl rfl, fun _ => ⟨hi, rfl⟩, fun _ => ⟨fun _ => rfl, fun _ => rfl⟩⟩
    · exact h

theorem inv_run (c : Relay.Cfg) (d : Bool) (ops : List Op) : Inv ((init d).run c ops) := by
  have : ∀ (ops : List Op) (s : St), Inv s → Inv (s.run c ops) := by
    intro ops
    induction ops with
    | nil => exact fun _ h => h
    | cons o os ih => exact fun s h => ih _ (inv_step h o)
  exact this ops _ (inv_init d)

theorem tracked_iff (x : Strm) : x.tracked = true ↔ Spec.Counted x := by
  unfold Strm.tracked Spec.Counted
  cases x.uni <;> cases x.opener <;> simp

/-! ## C121 -/

/-- When the client has gone and the proxy has nothing to do, the connection to the server was closed if and only if
no stream is left on which the server keeps silent. -/
theorem client_gone_iff (c : Relay.Cfg) (d : Bool) (ops : List Op) (hq : Spec.Quiet c ((init d).run c ops))
    (hg : ((init d).run c ops).gone .client = true) :
    ((init d).run c ops).closed .server = true ↔
      ∀ x ∈ ((init d).run c ops).streams, Spec.Counted x → ¬ Spec.WaitsForServer ((init d).run c ops) x := by
  have h := inv_run c d ops
  generalize (init d).run c ops = s at hq hg h
  constructor
  · intro hc x hx ht hw
    have hr := (h.closed .server).1 hc
    have := (idle_iff s).1 (h.returned hr).1
    rcases this.2 x hx ((tracked_iff x).2 ht) with h' | h' <;> rw [hw.1] at h' <;> cases h'
  · intro hall
    refine (h.closed .server).2 ?_
    have hidle : s.idle = true := by
      rw [idle_iff]
      refine ⟨?_, ?_⟩
      · intro l w
        have := hq (.loopEnds l w) rfl
        unfold St.step at this
        dsimp only at this
        rw [if_pos (.inr hg)] at this
        have h' := congrArg (fun s => s.running l w) this
        dsimp only at h'
        rw [if_pos ⟨rfl, rfl⟩] at h'
        exact h'.symm
      · intro x hx ht
        have h1 : x.tryOpen s.gone s.appErr = x :=
          upd_fixed (l := s.streams) (f := fun x => x.tryOpen s.gone s.appErr)
            (fun k => congrArg St.streams (hq (.tryOpen k) rfl)) hx
        have h2 : ∀ w, x.endDir c s.gone w = x := fun w =>
          upd_fixed (l := s.streams) (f := fun x => x.endDir c s.gone w) (fun k => congrArg St.streams (hq (.endDir k w) rfl)) hx
        have hcan : ∀ w, x.phase = .relaying → x.canEnd s.gone w = true → x.copying w = false := by
          intro w hp hc
          cases hcw : x.copying w with
          | false => rfl
          | true =>
            have := congrArg (fun y => y.copying w) (h2 w)
            unfold Strm.endDir at this
            rw [if_pos ⟨hp, hcw, hc⟩] at this
            dsimp only at this
            rw [put_same, hcw] at this
            cases this
        cases hp : x.phase with
        | over => exact .inl hp
        | failed => exact .inr hp
        | opening =>
          exfalso
          have := congrArg Strm.phase h1
          unfold Strm.tryOpen at this
          rw [if_pos hp] at this
          split at this <;> rw [hp] at this <;> cases this
        | relaying =>
          exfalso
          have hcl : x.copying .client = false := hcan .client hp (by unfold Strm.canEnd; simp [hg])
          have hsv : x.copying .server = true := by
            rcases ((h.strm x hx).2.1) hp with h' | h'
            · rw [hcl] at h'; cases h'
            · exact h'
          have hno : x.canEnd s.gone .server = false := by
            cases hce : x.canEnd s.gone .server with
            | false => rfl
            | true => rw [hcan .server hp hce] at hsv; cases hsv
          unfold Strm.canEnd at hno
          simp only [Bool.or_eq_false_iff] at hno
          obtain ⟨⟨⟨n1, n2⟩, n3⟩, n4⟩ := hno
          refine hall x hx ((tracked_iff x).1 ht) ⟨hp, hsv, n1, ?_, n3, n4⟩
          cases he : x.ended .server with
          | none => rfl
          | some _ => rw [he] at n2; cases n2
    have := hq .finish rfl
    unfold St.step at this
    dsimp only at this
    rw [if_pos hidle] at this
    have h' := congrArg St.returned this
    exact h'.symm

/-- C121, in part: when the client has gone, the server's connection is closed, if the server has ended what it had to
send on every stream. -/
theorem client_gone_partial (c : Relay.Cfg) (d : Bool) (ops : List Op) (hq : Spec.Quiet c ((init d).run c ops))
    (hg : ((init d).run c ops).gone .client = true)
    (he : ∀ x ∈ ((init d).run c ops).streams, Spec.Counted x → x.ended .server ≠ none) :
    ((init d).run c ops).closed .server = true :=
  (client_gone_iff c d ops hq hg).2 fun x hx hc hw => he x hx hc hw.2.2.2.1

/-- The other half of C121 does not hold at all: whatever becomes of the server's connection, the proxy does not close
the client's as long as the client keeps it. -/
theorem server_gone_ignored (c : Relay.Cfg) (d : Bool) (ops : List Op) (hg : ((init d).run c ops).gone .client = false) :
    ((init d).run c ops).closed .client = false := by
  have h := inv_run c d ops
  cases hc : ((init d).run c ops).closed .client with
  | false => rfl
  | true =>
    have := (h.returned ((h.closed .client).1 hc)).2
    rw [hg] at this; cases this

/-- What becomes of the streams a client opens after the server's connection has ended. -/
def Lost (s : St) (x : Strm) : Prop := x.opener = .client → (x.phase = .opening ∨ x.phase = .failed) ∧ x.told = false ∧
  (x.stopped = true → s.appErr .server = true)

/-- The same, followed over all that may happen later. -/
theorem lost_step {c : Relay.Cfg} {s : St} (hs : s.gone .server = true) (n : Nat)
    (h : ∀ x ∈ s.streams.drop n, Lost s x) (hn : n ≤ s.streams.length) (o : Op) :
    (s.step c o).gone .server = true ∧ (∀ x ∈ (s.step c o).streams.drop n, Lost (s.step c o) x) ∧
      n ≤ (s.step c o).streams.length := by
  have hupd : ∀ (l : List Strm) (k : Nat) (f : Strm → Strm), (upd l k f).length = l.length := by
    intro l
    induction l with
    | nil => intros; rfl
    | cons a l ih => intro k f; cases k <;> simp [upd, ih]
  have hdrop : ∀ (l : List Strm) (n k : Nat) (f : Strm → Strm) (y : Strm), y ∈ (upd l k f).drop n →
      y ∈ l.drop n ∨ ∃ x ∈ l.drop n, y = f x := by
    intro l
    induction l with
    | nil => intro n k f y hy; simp [upd] at hy
    | cons a l ih =>
      intro n k f y hy
      cases n with
      | zero => exact mem_upd hy
      | succ n =>
        cases k with
        | zero => exact .inl hy
        | succ k => exact ih n k f y hy
  have hgen : ∀ (k : Nat) (f : Strm → Strm), (∀ x, Lost s x → Lost s (f x)) →
      ∀ x ∈ (upd s.streams k f).drop n, Lost s x := by
    intro k f hf x hx
    rcases hdrop _ _ _ _ _ hx with hx | ⟨y, hy, rfl⟩
    · exact h x hx
    · exact hf y (h y hy)
  cases o with
  | goes w app =>
    unfold St.step
    dsimp only
    split
    · exact ⟨hs, h, hn⟩
    · rename_i hw
      have hne : Who.server ≠ w := by rintro rfl; exact hw hs
      refine ⟨?_, ?_, hn⟩
      · show put s.gone w true .server = true
        unfold put; rw [if_neg hne]; exact hs
      · intro x hx ho
        obtain ⟨h1, h2, h3⟩ := h x hx ho
        refine ⟨h1, h2, ?_⟩
        intro hst
        show put s.appErr w app .server = true
        unfold put; rw [if_neg hne]; exact h3 hst
  | opens w uni =>
    unfold St.step
    dsimp only
    split
    · refine ⟨hs, ?_, ?_⟩
      · intro x hx
        dsimp only at hx
        rw [List.drop_append_of_le_length hn] at hx
        rcases List.mem_append.1 hx with hx | hx
        · exact h x hx
        · rw [List.mem_singleton.1 hx]
          intro _
          exact ⟨.inl rfl, rfl, (fun h => by cases h)⟩
      · simp; omega
    · exact ⟨hs, h, hn⟩
  | ends k w o =>
    refine ⟨hs, hgen k _ ?_, by show n ≤ (upd _ _ _).length; rw [hupd]; exact hn⟩
    intro x hx; split
    · exact hx
    · exact hx
  | sends k w =>
    refine ⟨hs, hgen k _ ?_, by show n ≤ (upd _ _ _).length; rw [hupd]; exact hn⟩
    intro x hx; split
    · exact hx
    · exact hx
  | loopEnds l w =>
    unfold St.step
    dsimp only
    split
    · exact ⟨hs, h, hn⟩
    · exact ⟨hs, h, hn⟩
  | tryOpen k =>
    refine ⟨hs, hgen k _ ?_, by show n ≤ (upd _ _ _).length; rw [hupd]; exact hn⟩
    intro x hx
    unfold Strm.tryOpen
    split
    · split
      · intro ho
        have ho' : x.opener = .client := ho
        obtain ⟨h1, h2, h3⟩ := hx ho'
        refine ⟨.inr rfl, h2, ?_⟩
        intro hst
        have hst' : (s.gone x.opener.other && s.appErr x.opener.other) = true := hst
        rw [ho'] at hst'
        exact (Bool.and_eq_true_iff.1 hst').2
      · rename_i hno
        intro ho
        have ho' : x.opener = .client := ho
        rw [ho'] at hno
        exact absurd (.inl hs) hno
    · exact hx
  | endDir k w =>
    refine ⟨hs, hgen k _ ?_, by show n ≤ (upd _ _ _).length; rw [hupd]; exact hn⟩
    intro x hx
    unfold Strm.endDir
    split
    · rename_i hc
      intro ho
      have ho' : x.opener = .client := ho
      rcases (hx ho').1 with h' | h' <;> rw [hc.1] at h' <;> cases h'
    · exact hx
  | finish =>
    unfold St.step
    dsimp only
    split
    · exact ⟨rfl, h, hn⟩
    · exact ⟨hs, h, hn⟩

/-- A stream that a client opens after the server's connection has ended is never relayed, and the client is never told
so: the proxy does not end its side of the stream. It asks the client to stop sending only if the server had closed
its connection with an application error. -/
theorem late_stream_hangs (c : Relay.Cfg) (d : Bool) (ops ops' : List Op) (hs : ((init d).run c ops).gone .server = true) :
    ∀ x ∈ (((init d).run c ops).run c ops').streams.drop ((init d).run c ops).streams.length, x.opener = .client →
      (x.phase = .opening ∨ x.phase = .failed) ∧ x.told = false ∧
        (x.stopped = true → (((init d).run c ops).run c ops').appErr .server = true) := by
  have key : ∀ (ops : List Op) (s : St) (n : Nat), s.gone .server = true → (∀ x ∈ s.streams.drop n, Lost s x) →
      n ≤ s.streams.length → ∀ x ∈ (s.run c ops).streams.drop n, Lost (s.run c ops) x := by
    intro ops
    induction ops with
    | nil => exact fun s n _ h _ => h
    | cons o os ih =>
      intro s n h1 h2 h3
      obtain ⟨a, b, e⟩ := lost_step (c := c) h1 n h2 h3 o
      exact ih (s.step c o) n a b e
  exact key ops' _ _ hs (by rw [List.drop_length]; intro x hx; cases hx) (Nat.le_refl _)

/-- C121 is violated. First, the client has gone, and the proxy keeps the connection to the server, for the sake of a
stream on which the server says nothing. Second, the server has gone, and the proxy keeps the client's
connection and a stream that it opened afterwards. -/
theorem together_violated :
    (∃ ops, let s := (init true).run (Relay.Cfg.quicDefaults {}) ops
      Spec.Quiet (Relay.Cfg.quicDefaults {}) s ∧ s.gone .client = true ∧ s.gone .server = false ∧
        s.closed .server = false) ∧
    (∃ ops, let s := (init true).run (Relay.Cfg.quicDefaults {}) ops
      Spec.Quiet (Relay.Cfg.quicDefaults {}) s ∧ s.gone .server = true ∧ s.gone .client = false ∧
        s.closed .client = false ∧ s.streams.length = 1) := by
  refine ⟨⟨[.opens .client false, .tryOpen 0, .goes .client true, .endDir 0 .client] ++
      ([Loop.bidi, .uni, .datagram].flatMap fun l => [.loopEnds l .client, .loopEnds l .server]), ?_, rfl, rfl, rfl⟩,
    ⟨[.goes .server false, .opens .client false, .tryOpen 0, .loopEnds .bidi .server, .loopEnds .uni .server,
      .loopEnds .datagram .server], ?_, rfl, rfl, rfl, rfl⟩⟩
  · intro o ho
    cases o with
    | goes => cases ho
    | opens => cases ho
    | ends => cases ho
    | sends => cases ho
    | loopEnds l w =>
      refine St.ext' ?_ ?_ ?_ ?_ ?_ ?_ <;> cases w <;> try rfl
      all_goals funext l' w'; cases l <;> cases l' <;> cases w' <;> rfl
    | tryOpen k => cases k <;> rfl
    | endDir k w => cases k <;> cases w <;> rfl
    | finish => rfl
  · intro o ho
    cases o with
    | goes => cases ho
    | opens => cases ho
    | ends => cases ho
    | sends => cases ho
    | loopEnds l w =>
      refine St.ext' ?_ ?_ ?_ ?_ ?_ ?_ <;> cases w <;> try rfl
      funext l' w'; cases l <;> cases l' <;> cases w' <;> rfl
    | tryOpen k => cases k <;> rfl
    | endDir k w => cases k <;> cases w <;> rfl
    | finish => rfl

/-! ## C122 -/

/-- What the settings are documented to mean (config.go:406-413). -/
def Spec.setting (c : Relay.Cfg) : Who → Bool
  | .client => c.clientCloseEnds.getD false
  | .server => c.serverCloseEnds.getD true

/-- C122, in part: the settings apply as documented to a stream that the client opens, whatever they are; to one that the
server opens only if they are the same. -/
theorem settings_partial (c : Relay.Cfg) (o : Who) :
    (∀ w, closeWhenDone c o w = Spec.setting c w) ↔ o = .client ∨ Spec.setting c .client = Spec.setting c .server := by
  have hc : ∀ w, closeWhenDone c .client w = Spec.setting c w := by intro w; cases w <;> rfl
  have hs : ∀ w, closeWhenDone c .server w = Spec.setting c w.other := by intro w; cases w <;> rfl
  cases o with
  | client => exact ⟨fun _ => .inl rfl, fun _ => hc⟩
  | server =>
    constructor
    · intro h
      have := h .server
      rw [hs] at this
      exact .inr this
    · rintro (h | h)
      · cases h
      · intro w
        rw [hs]
        cases w
        · exact h.symm
        · exact h

/-- C122 is violated: with `serverCloseEndsConnection`, the server ends a stream that it had opened itself, and the client's
half of the stream goes on. On a stream that the client opened, the client's half is ended. -/
theorem settings_violated : ∃ c : Relay.Cfg, c.serverCloseEnds = some true ∧ c.clientCloseEnds = some false ∧
    (∃ s : Relay.St, s = (Relay.init .quic .quic).run c [.peerFin .up, .read .up 0] ∧
      (s.side .up).fin = true ∧ (s.side .up).ended = none) ∧
    (∃ s : Relay.St, s = (Relay.init .quic .quic).run c [.peerFin .down, .read .down 0] ∧
      (s.side .down).fin = true ∧ (s.side .down).ended = some .orderly) :=
  ⟨{ serverCloseEnds := some true, clientCloseEnds := some false }, rfl, rfl, ⟨_, rfl, by decide +kernel, by decide +kernel⟩,
    ⟨_, rfl, by decide +kernel, by decide +kernel⟩⟩

/-- The hypotheses of `client_gone_partial` are met: a stream on which the server has ended, a client that goes away. -/
example : let s := (init false).run {} ([.opens .client false, .tryOpen 0, .ends 0 .server true, .endDir 0 .server,
      .goes .client true, .endDir 0 .client] ++
      ([Loop.bidi, .uni, .datagram].flatMap fun l => [.loopEnds l .client, .loopEnds l .server]) ++ [.finish])
    s.gone .client = true ∧ (∀ x ∈ s.streams, x.ended .server ≠ none) ∧ s.streams.length = 1 ∧ s.closed .server = true := by
  refine ⟨rfl, ?_, rfl, rfl⟩
  intro x hx
  rw [List.mem_singleton.1 hx]
  decide +kernel

/-- Those of `server_gone_ignored` and `late_stream_hangs` are met: the server closes with an application error, the
client opens a stream. -/
example : let s := (init false).run {} [.goes .server true]
    let s' := s.run {} [.opens .client false, .tryOpen 0]
    s.gone .server = true ∧ s'.gone .client = false ∧ (s'.streams.drop s.streams.length).length = 1 ∧
      (s'.streams.map (·.stopped)) = [true] ∧ (s'.streams.map (·.told)) = [false] := by decide +kernel

/-! ## One-way streams -/

/-- C121 (what is taken). A stream that a peer opens is relayed exactly if the loop for its kind still runs for that
peer and neither the peer nor the client has gone: one-way and two-way streams have loops of their own. -/
theorem opened_iff (c : Relay.Cfg) (s : St) (w : Who) :
    ((s.step c (.opens w true)).streams = s.streams ++ [.new w true] ↔
      s.running .uni w = true ∧ s.gone w = false ∧ s.gone .client = false) ∧
    ((s.step c (.opens w false)).streams = s.streams ++ [.new w false] ↔
      s.running .bidi w = true ∧ s.gone w = false ∧ s.gone .client = false) := by
  have hne : ∀ x : Strm, s.streams ≠ s.streams ++ [x] := by
    intro x h
    have := congrArg List.length h
    simp at this
  constructor
  · show (if s.running .uni w = true ∧ s.gone w = false ∧ s.gone .client = false then _ else s : St).streams = _ ↔ _
    by_cases h : s.running .uni w = true ∧ s.gone w = false ∧ s.gone .client = false
    · rw [if_pos h]; exact ⟨fun _ => h, fun _ => rfl⟩
    · rw [if_neg h]; exact ⟨fun e => absurd e (hne _), fun e => absurd e h⟩
  · show (if s.running .bidi w = true ∧ s.gone w = false ∧ s.gone .client = false then _ else s : St).streams = _ ↔ _
    by_cases h : s.running .bidi w = true ∧ s.gone w = false ∧ s.gone .client = false
    · rw [if_pos h]; exact ⟨fun _ => h, fun _ => rfl⟩
    · rw [if_neg h]; exact ⟨fun e => absurd e (hne _), fun e => absurd e h⟩

/-- Nobody has gone. -/
def Spec.here : Who → Bool := fun _ => false

/-- C121 (one way). On a one-way stream the direction back ends at once and in order, and with the usual settings
that does not end the direction in which data flows. -/
theorem oneway_back (c : Relay.Cfg) (w : Who) (hc : closeWhenDone c w w.other = false) :
    let x := ((Strm.new w true).tryOpen Spec.here Spec.here).endDir c Spec.here w.other
    x.phase = .relaying ∧ x.copying w.other = false ∧ x.copying w = true ∧ x.orderly w.other = true := by
  have h1 : (Strm.new w true).tryOpen Spec.here Spec.here = { Strm.new w true with phase := .relaying } := by
    cases w <;> rfl
  rw [h1]
  dsimp only
  unfold Strm.endDir
  have he : (Strm.new w true).ended w.other = some true := by cases w <;> rfl
  have hopen : (Strm.new w true).opener = w := rfl
  have hcp : (Strm.new w true).copying = fun _ => true := rfl
  rw [if_pos ⟨rfl, rfl, by unfold Strm.canEnd; dsimp only; rw [he]; simp⟩]
  dsimp only
  rw [he, hopen, hc, hcp]
  refine ⟨rfl, put_same .., ?_, ?_⟩
  · cases w <;> rfl
  · cases w <;> rfl

/-- Non-vacuity: with the usual settings, for both peers; and a connection on which both kinds of streams are taken. -/
example : (∀ w, closeWhenDone (Relay.Cfg.quicDefaults {}) w w.other = false) ∧
    (init true).running .uni .server = true ∧ (init true).gone .server = false ∧ (init true).gone .client = false :=
  ⟨fun w => by cases w <;> rfl, rfl, rfl, rfl⟩

/-! ## How a direction ends -/

/-- What a direction that has ended says about its end: the clock for the other one runs exactly if the peer had ended
its stream in order, nobody had gone and the settings let the other direction go on; otherwise the opener was told, and
so it was when the direction towards it ended. -/
structure EndOk (c : Relay.Cfg) (gone : Who → Bool) (x : Strm) : Prop where
  clock : ∀ w, x.orderly w = true → x.copying w = false ∧ x.ended w = some true ∧ closeWhenDone c x.opener w = false
  noClock : ∀ w, x.copying w = false → x.orderly w = false →
    x.told = true ∧ (x.ended w = none ∨ x.ended w = some true → gone w = false → gone w.other = false →
      x.orderly w.other = false → x.ended w = some true ∧ closeWhenDone c x.opener w = true)
  towards : x.copying x.opener.other = false → x.told = true
  told : x.told = true → x.copying x.opener.other = false ∨ (x.copying x.opener = false ∧ x.orderly x.opener = false)
  unread : ∀ w, x.unread w = true → gone w.other = true

theorem endOk_mono {c : Relay.Cfg} {g g' : Who → Bool} {x : Strm} (hg : ∀ w, g w = true → g' w = true)
    (h : EndOk c g x) : EndOk c g' x := by
  refine ⟨h.clock, ?_, h.towards, h.told, fun w hw => hg _ (h.unread w hw)⟩
  intro w h1 h2
  refine ⟨(h.noClock w h1 h2).1, fun h3 h4 h5 => (h.noClock w h1 h2).2 h3 ?_ ?_⟩
  · cases hx : g w
    · rfl
    · rw [hg _ hx] at h4; cases h4
  · cases hx : g w.other
    · rfl
    · rw [hg _ hx] at h5; cases h5

theorem endOk_new (c : Relay.Cfg) (g : Who → Bool) (w : Who) (u : Bool) : EndOk c g (.new w u) :=
  ⟨fun _ h => (nomatch h), fun _ h => (nomatch h), fun h => (nomatch h), fun h => (nomatch h), fun _ h => (nomatch h)⟩

theorem endOk_tryOpen {c : Relay.Cfg} {g : Who → Bool} {x : Strm} (h : EndOk c g x) (a : Who → Bool) :
    EndOk c g (x.tryOpen g a) := by
  unfold Strm.tryOpen
  split
  · split <;> exact ⟨h.clock, h.noClock, h.towards, h.told, h.unread⟩
  · exact h

theorem who_cases (w v : Who) : v = w ∨ v = w.other := by cases w <;> cases v <;> simp [Who.other]

theorem endOk_endDir {c : Relay.Cfg} {g : Who → Bool} {x : Strm} (h : EndOk c g x) (w : Who) :
    EndOk c g (x.endDir c g w) := by
  unfold Strm.endDir
  split
  · rename_i hc
    obtain ⟨-, hcp, hce⟩ := hc
    have ho : x.orderly w = false := by
      cases hx : x.orderly w
      · rfl
      · rw [(h.clock w hx).1] at hcp; cases hcp
    dsimp only
    generalize hhalf : (x.ended w == some true && !g w && !g w.other && !closeWhenDone c x.opener w) = half
    have hother : ∀ b : Bool, put x.copying w b w.other = x.copying w.other := fun b => put_other ..
    cases half with
    | true =>
      have hh : ((x.ended w = some true ∧ g w = false) ∧ g w.other = false) ∧ closeWhenDone c x.opener w = false := by
        simpa using hhalf
      constructor
      · intro v hv
        rcases who_cases w v with rfl | rfl
        · exact ⟨put_same .., hh.1.1.1, hh.2⟩
        · dsimp only at hv ⊢
          rw [if_pos rfl, put_other] at hv
          rw [put_other]
          exact h.clock _ hv
      · intro v h1 h2
        rcases who_cases w v with rfl | rfl
        · dsimp only at h2
          rw [if_pos rfl, put_same] at h2; cases h2
        · dsimp only at h1 h2 ⊢
          rw [if_pos rfl, put_other] at h2
          rw [put_other] at h1
          have := h.noClock _ h1 h2
          refine ⟨by rw [this.1]; rfl, ?_⟩
          rw [if_pos rfl, other_other, put_same]
          exact fun _ _ _ e => (nomatch e)
      · intro h1
        dsimp only at h1 ⊢
        rcases who_cases w x.opener.other with e | e
        · have : w ≠ x.opener := by rw [← e]; exact other_ne _
          simp [this]
        · rw [e, put_other, ← e] at h1
          rw [h.towards h1]; rfl
      · intro h1
        dsimp only at h1 ⊢
        rcases who_cases w x.opener.other with e | e
        · left; rw [e, put_same]
        · have e' : x.opener = w := by
            have := congrArg Who.other e
            simpa using this
          rw [e'] at h1
          simp only [Bool.not_true, Bool.or_false, bne_self_eq_false] at h1
          rcases h.told h1 with h2 | h2
          · left; rw [e, put_other, ← e]; exact h2
          · rw [e', hcp] at h2; cases h2.1
      · exact h.unread
    | false =>
      have hh : x.ended w = none ∨ x.ended w = some true → g w = false → g w.other = false → x.orderly w.other = false →
          x.ended w = some true ∧ closeWhenDone c x.opener w = true := by
        intro a b d e
        have hu : x.unread w = false := by
          cases hx : x.unread w
          · rfl
          · rw [h.unread w hx] at d; cases d
        unfold Strm.canEnd at hce
        rw [b, hu, e] at hce
        rcases a with a | a
        · rw [a] at hce; cases hce
        · refine ⟨a, ?_⟩
          rw [a, b, d] at hhalf
          simpa using hhalf
      constructor
      · intro v hv
        dsimp only at hv ⊢
        rw [if_neg (by simp)] at hv
        rcases who_cases w v with rfl | rfl
        · rw [ho] at hv; cases hv
        · rw [put_other]; exact h.clock _ hv
      · intro v h1 h2
        dsimp only at h1 h2 ⊢
        rw [if_neg (by simp)] at h2
        refine ⟨by simp, ?_⟩
        rw [if_neg (by simp)]
        rcases who_cases w v with rfl | rfl
        · exact hh
        · rw [put_other] at h1
          exact (h.noClock _ h1 h2).2
      · intro _; simp
      · intro _
        dsimp only
        rw [if_neg (by simp)]
        rcases who_cases w x.opener.other with e | e
        · left; rw [e, put_same]
        · have e' : x.opener = w := by
            have := congrArg Who.other e
            simpa using this
          right
          rw [e']
          exact ⟨put_same .., ho⟩
      · exact h.unread
  · exact h

theorem endOk_step {c : Relay.Cfg} {s : St} (h : ∀ x ∈ s.streams, EndOk c s.gone x) (o : Op) :
    ∀ x ∈ (s.step c o).streams, EndOk c (s.step c o).gone x := by
  cases o with
  | goes w app =>
    unfold St.step
    dsimp only
    split
    · exact h
    · intro x hx
      refine endOk_mono ?_ (h x hx)
      intro v hv
      show put s.gone w true v = true
      unfold put
      split
      · rfl
      · exact hv
  | opens w uni =>
    unfold St.step
    dsimp only
    split
    · intro x hx
      rcases List.mem_append.1 hx with hx | hx
      · exact h x hx
      · rw [List.mem_singleton.1 hx]; exact endOk_new ..
    · exact h
  | ends k w o =>
    intro y hy
    rcases mem_upd hy with hy | ⟨x, hx, rfl⟩
    · exact h y hy
    · have hi := h x hx
      show EndOk c s.gone (if _ then _ else _)
      split
      · rename_i hc
        have hne : x.ended w = none := by simpa using hc.1
        refine ⟨?_, ?_, hi.towards, hi.told, hi.unread⟩
        · intro v hv
          obtain ⟨h1, h2, h3⟩ := hi.clock v hv
          refine ⟨h1, ?_, h3⟩
          show put x.ended w (some o) v = some true
          unfold put
          rw [if_neg (by rintro rfl; rw [hne] at h2; cases h2)]
          exact h2
        · intro v h1 h2
          refine ⟨(hi.noClock v h1 h2).1, ?_⟩
          show put x.ended w (some o) v = none ∨ put x.ended w (some o) v = some true → _
          by_cases e : v = w
          · subst e
            intro _ h4 h5 h6
            have := (hi.noClock v h1 h2).2 (.inl hne) h4 h5 h6
            rw [hne] at this
            cases this.1
          · have : put x.ended w (some o) v = x.ended v := by unfold put; rw [if_neg e]
            dsimp only
            rw [this]
            exact (hi.noClock v h1 h2).2
      · exact hi
  | sends k w =>
    intro y hy
    rcases mem_upd hy with hy | ⟨x, hx, rfl⟩
    · exact h y hy
    · have hi := h x hx
      show EndOk c s.gone (if _ then _ else _)
      split
      · rename_i hc
        refine ⟨hi.clock, hi.noClock, hi.towards, hi.told, ?_⟩
        intro v hv
        change put x.unread w true v = true at hv
        unfold put at hv
        split at hv
        · rename_i e; rw [e]; exact hc.2.2
        · exact hi.unread v hv
      · exact hi
  | loopEnds l w =>
    unfold St.step
    dsimp only
    split <;> exact h
  | tryOpen k =>
    intro y hy
    rcases mem_upd hy with hy | ⟨x, hx, rfl⟩
    · exact h y hy
    · exact endOk_tryOpen (h x hx) _
  | endDir k w =>
    intro y hy
    rcases mem_upd hy with hy | ⟨x, hx, rfl⟩
    · exact h y hy
    · exact endOk_endDir (h x hx) w
  | finish =>
    unfold St.step
    dsimp only
    split
    · intro x hx
      exact endOk_mono (fun _ _ => rfl) (h x hx)
    · exact h

theorem endOk_run (c : Relay.Cfg) (d : Bool) (ops : List Op) :
    ∀ x ∈ ((init d).run c ops).streams, EndOk c ((init d).run c ops).gone x := by
  have : ∀ (ops : List Op) (s : St), (∀ x ∈ s.streams, EndOk c s.gone x) →
      ∀ x ∈ (s.run c ops).streams, EndOk c (s.run c ops).gone x := by
    intro ops
    induction ops with
    | nil => exact fun _ h => h
    | cons o os ih => exact fun s h => ih _ (endOk_step h o)
  exact this ops _ (fun _ h => nomatch h)

/-- C121 (how a direction ends). In every run, a direction of a stream that has ended has either left the other one
its time — then the peer had ended its part in order and the settings allow that — or the proxy has ended the stream of
the opener; the latter happens only if a connection has gone, the peer ended out of order, the time is up or the
settings say so. The opener is told in no other case than these and the end of the direction towards it. -/
theorem direction_end (c : Relay.Cfg) (d : Bool) (ops : List Op) (x : Strm)
    (hx : x ∈ ((init d).run c ops).streams) :
    (∀ w, x.orderly w = true → x.copying w = false ∧ x.ended w = some true ∧ closeWhenDone c x.opener w = false) ∧
    (∀ w, x.copying w = false → x.orderly w = false → x.told = true ∧
      (((init d).run c ops).gone w = true ∨ ((init d).run c ops).gone w.other = true ∨ x.ended w = some false ∨
        x.orderly w.other = true ∨ closeWhenDone c x.opener w = true)) ∧
    (x.told = true ↔ x.copying x.opener.other = false ∨ (x.copying x.opener = false ∧ x.orderly x.opener = false)) := by
  have h := endOk_run c d ops x hx
  refine ⟨h.clock, ?_, h.told, ?_⟩
  · intro w h1 h2
    refine ⟨(h.noClock w h1 h2).1, ?_⟩
    have h3 := (h.noClock w h1 h2).2
    cases h4 : ((init d).run c ops).gone w
    · cases h5 : ((init d).run c ops).gone w.other
      · cases h6 : x.orderly w.other
        · cases h7 : x.ended w with
          | none => exact .inr (.inr (.inr (.inr (h3 (.inl h7) h4 h5 h6).2)))
          | some b =>
            cases b
            · exact .inr (.inr (.inl rfl))
            · exact .inr (.inr (.inr (.inr (h3 (.inr h7) h4 h5 h6).2)))
        · exact .inr (.inr (.inr (.inl rfl)))
      · exact .inr (.inl rfl)
    · exact .inl rfl
  · rintro (h1 | ⟨h1, h2⟩)
    · exact h.towards h1
    · exact (h.noClock _ h1 h2).1

/-- C121 (data for a peer that has gone). What a peer sends on a stream that is being relayed, after the other one has gone, lets the
proxy end that direction. -/
theorem late_data_ends (c : Relay.Cfg) (s : St) (x : Strm) (w : Who) (hs : s.streams = [x]) (hp : x.phase = .relaying)
    (hcp : x.copying w = true) (he : x.ended w = none) (hw : s.gone w = false) (hg : s.gone w.other = true) :
    ∃ y, (s.run c [.sends 0 w, .endDir 0 w]).streams = [y] ∧ y.copying w = false ∧ y.told = true := by
  have h1 : (s.step c (.sends 0 w)).streams = [{ x with unread := put x.unread w true }] := by
    show upd s.streams 0 _ = _
    rw [hs]
    show [if _ then _ else _] = _
    rw [if_pos ⟨by rw [he]; rfl, hw, hg⟩]
  refine ⟨Strm.endDir c s.gone { x with unread := put x.unread w true } w, ?_, ?_, ?_⟩
  · show upd (s.step c (.sends 0 w)).streams 0 _ = _
    rw [h1]
    rfl
  all_goals
    unfold Strm.endDir
    rw [if_pos ⟨hp, hcp, by unfold Strm.canEnd; dsimp only; rw [put_same]; simp⟩]
  · exact put_same ..
  · dsimp only
    rw [he]
    simp

/-- Non-vacuity: streams of one run; a client that has ended in order, one that has reset, and one that sends to a
server that has gone. -/
example : let s := (init false).run {} [.opens .client false, .tryOpen 0, .ends 0 .client true, .endDir 0 .client,
      .opens .client false, .tryOpen 1, .ends 1 .client false, .endDir 1 .client]
    s.streams.map (fun x => (x.orderly .client, x.copying .client, x.told)) = [(true, false, false), (false, false, true)] ∧
    (let s' := (init false).run {} [.opens .client false, .tryOpen 0, .goes .server true]
     ∃ x, s'.streams = [x] ∧ x.phase = .relaying ∧ x.copying .client = true ∧ x.ended .client = none ∧
       s'.gone .client = false ∧ s'.gone .server = true) :=
  ⟨by decide +kernel, _, rfl, rfl, rfl, rfl, rfl, rfl⟩

end Verif.QuicRelay
