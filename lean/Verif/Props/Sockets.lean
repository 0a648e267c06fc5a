import Verif.Model.Sockets
/-
C148. Connections to servers end with their use: what a failed dial has opened is closed, what a successful dial
has opened is closed when its user closes the connection, and connections are listed exactly while they are in use.
-/
namespace Verif.Sockets

namespace Spec

/-- No connection is left open. -/
def Tidy (l : Left) : Prop := ∀ s ∈ l.socks, s.closed = true

/-- Only the connection that is in use is open, and it is listed. -/
def InUse (l : Left) : Prop :=
  ∃ s ss, l.socks = s :: ss ∧ s.closed = false ∧ (∀ t ∈ ss, t.closed = true) ∧ l.listed = true

/-- The connection has been established, and nothing remains to be done. -/
def Settled (w : World) : Prop := w.pc = .returned ∧ ¬ (w.waiting = true ∧ w.ended = true)

/-- It was lost before it was listed. -/
def LostEarly (evs : List Event) : Prop :=
  ∃ as bs, evs = as ++ .lost :: bs ∧ as.count .go < 2

end Spec

/-! ## TCP -/

/-- The connections of the attempts so far are closed; then the loop ends well. -/
theorem loop_tcp (pp : Bool) (ns : List Net) (socks : List Sock) (max : Nat) (h : ∀ s ∈ socks, s.closed = true) :
    ((dialLoop false pp socks max ns).returned = false → Spec.Tidy (dialLoop false pp socks max ns) ∧
      (dialLoop false pp socks max ns).listed = false) ∧
    ((dialLoop false pp socks max ns).returned = true → Spec.InUse (dialLoop false pp socks max ns) ∧
      ∀ s ∈ (dialLoop false pp socks max ns).socks, s.quic = false ∨ s ∈ socks) := by
  induction ns generalizing socks max with
  | nil =>
    unfold dialLoop
    exact ⟨fun _ => ⟨h, rfl⟩, fun e => (nomatch e)⟩
  | cons n ns ih =>
    unfold dialLoop
    dsimp only
    rw [if_neg Bool.false_ne_true]
    cases n with
    | refused =>
      unfold dialTCP
      dsimp only
      rw [if_neg Bool.false_ne_true]
      split
      · exact ih _ _ h
      · exact ⟨fun _ => ⟨h, rfl⟩, fun e => (nomatch e)⟩
    | connected next =>
      unfold dialTCP
      dsimp only
      split
      · dsimp only
        rw [if_neg Bool.false_ne_true]
        have h' : ∀ s ∈ (some ({ quic := false, closed := true } : Sock)).toList ++ socks, s.closed = true := by
          intro s hs
          rcases List.mem_append.mp hs with hs | hs
          · cases List.mem_singleton.mp hs; rfl
          · exact h s hs
        split
        · obtain ⟨h1, h2⟩ := ih _ (max - 1) h'
          refine ⟨h1, fun e => ⟨(h2 e).1, fun s hs => ?_⟩⟩
          rcases (h2 e).2 s hs with hq | hq
          · exact .inl hq
          · rcases List.mem_append.mp hq with hq | hq
            · cases List.mem_singleton.mp hq; exact .inl rfl
            · exact .inr hq
        · exact ⟨fun _ => ⟨h', rfl⟩, fun e => (nomatch e)⟩
      · dsimp only
        rw [if_pos rfl]
        refine ⟨fun e => (nomatch e), fun _ => ⟨⟨_, socks, rfl, rfl, h, rfl⟩, ?_⟩⟩
        intro s hs
        rcases List.mem_append.mp hs with hs | hs
        · cases List.mem_singleton.mp hs; exact .inl rfl
        · exact .inr hs

/-- C148 (failed dials, partial). Whatever happens to the attempts, a dial that fails leaves no connection open or
listed. Missing: dials with QUIC (`failed_violated`). -/
theorem failed_tidy_partial (pp : Bool) (n : Nat) (ns : List Net) (h : (dial false pp n ns).returned = false) :
    Spec.Tidy (dial false pp n ns) ∧ (dial false pp n ns).listed = false := by
  unfold dial at h ⊢
  split
  · exact ⟨fun s hs => (nomatch hs), rfl⟩
  · rename_i hn
    rw [if_neg hn] at h
    exact (loop_tcp pp ns [] n (fun s hs => (nomatch hs))).1 h

/-- C148 (in use). A dial that succeeds leaves one connection open, which is listed. -/
theorem returned_in_use (pp : Bool) (n : Nat) (ns : List Net) (h : (dial false pp n ns).returned = true) :
    Spec.InUse (dial false pp n ns) := by
  unfold dial at h ⊢
  split
  · rename_i hn; rw [if_pos hn] at h; cases h
  · rename_i hn
    rw [if_neg hn] at h
    exact ((loop_tcp pp ns [] n (fun s hs => (nomatch hs))).2 h).1

/-- C148 (closed, partial). Once its user closes the connection, once or more often, nothing is left open or
listed. Missing: QUIC (`closed_violated`). -/
theorem closed_tidy_partial (pp : Bool) (n : Nat) (ns : List Net) (h : (dial false pp n ns).returned = true) :
    Spec.Tidy (close (dial false pp n ns)) ∧ (close (dial false pp n ns)).listed = false ∧
      close (close (dial false pp n ns)) = close (dial false pp n ns) := by
  have hq : ∀ s ∈ (dial false pp n ns).socks, s.quic = false := by
    unfold dial at h ⊢
    split
    · exact fun s hs => (nomatch hs)
    · rename_i hn
      rw [if_neg hn] at h
      intro s hs
      rcases ((loop_tcp pp ns [] n (fun s hs => (nomatch hs))).2 h).2 s hs with h | h
      · exact h
      · cases h
  obtain ⟨s, ss, h1, _, h3, _⟩ := returned_in_use pp n ns h
  generalize dial false pp n ns = l at h h1 h3 hq
  obtain ⟨socks, ret, listed⟩ := l
  dsimp only at h h1 h3 hq
  subst h h1
  have hs := hq s (List.mem_cons_self ..)
  unfold close
  simp only [if_true, hs, Bool.false_eq_true, if_false]
  refine ⟨?_, trivial, trivial⟩
  intro t ht
  rcases List.mem_cons.mp ht with rfl | ht
  · rfl
  · exact h3 t ht

/-! ## QUIC -/

/-- C148 (violated). With QUIC, each attempt whose connection is established but gets no stream in time leaves the
connection open, and it is not listed. -/
theorem failed_violated (pp : Bool) (n : Nat) (hn : n ≠ 0) :
    dial true pp n (List.replicate n (.connected false)) =
      { socks := List.replicate n { quic := true, closed := false }, returned := false, listed := false } := by
  have loop : ∀ (m : Nat) (socks : List Sock), m ≠ 0 →
      dialLoop true pp socks m (List.replicate m (.connected false)) =
        { socks := List.replicate m { quic := true, closed := false } ++ socks, returned := false, listed := false } := by
    intro m
    induction m with
    | zero => exact fun _ h => absurd rfl h
    | succ m ih =>
      intro socks _
      rw [List.replicate_succ]
      unfold dialLoop
      dsimp only
      rw [if_pos rfl]
      unfold dialQUICStream
      dsimp only
      rw [if_neg Bool.false_ne_true, Nat.add_sub_cancel]
      split
      · rename_i hm
        rw [ih _ (by omega)]
        simp [List.replicate_succ', List.append_assoc]
      · have : m = 0 := by omega
        subst this
        simp
  unfold dial
  rw [if_neg hn, loop n [] hn, List.append_nil]

/-- C148 (violated). With QUIC, closing what `dial` has returned closes a stream; its connection stays open as long
as the server wants, and is no longer listed. -/
theorem closed_violated (pp : Bool) (n : Nat) (ns : List Net) (h : (dial true pp n ns).returned = true) :
    ¬ Spec.Tidy (close (dial true pp n ns)) ∧ (close (dial true pp n ns)).listed = false := by
  have loop : ∀ (ns : List Net) (socks : List Sock) (m : Nat), (dialLoop true pp socks m ns).returned = true →
      ∃ ss, (dialLoop true pp socks m ns).socks = { quic := true, closed := false } :: ss := by
    intro ns
    induction ns with
    | nil => intro socks m h; unfold dialLoop at h; cases h
    | cons x ns ih =>
      intro socks m h
      unfold dialLoop at h ⊢
      dsimp only at h ⊢
      rw [if_pos rfl] at h ⊢
      split
      · rename_i hr
        match x, hr with
        | .connected true, _ => exact ⟨socks, rfl⟩
      · rename_i hr
        rw [if_neg hr] at h
        split
        · rename_i hm
          rw [if_pos hm] at h
          exact ih _ _ h
        · rename_i hm
          rw [if_neg hm] at h
          cases h
  have hs : ∃ ss, (dial true pp n ns).socks = { quic := true, closed := false } :: ss := by
    unfold dial at h ⊢
    split
    · rename_i hn; rw [if_pos hn] at h; cases h
    · rename_i hn
      rw [if_neg hn] at h
      exact loop ns [] n h
  obtain ⟨ss, hs⟩ := hs
  unfold close
  rw [if_pos h, hs]
  refine ⟨fun ht => ?_, rfl⟩
  have := ht _ (List.mem_cons_self ..)
  cases this

/-! ## `dialQUICBackend` -/

/-- What is true as long as the connection was not lost before it was listed. -/
structure Good (w : World) : Prop where
  dialled : w.pc = .dialled → w = init
  armed : w.pc = .armed → w = { pc := .armed, ended := false, hook := true, waiting := true, listed := false }
  hook : w.pc = .returned → (w.listed = w.hook ∧ (w.hook = false → w.ended = true) ∧ (w.hook = true → w.waiting = true))

theorem good_step {w : World} (h : Good w) (ev : Event) (he : ev = .lost → w.pc = .returned) : Good (step w ev) := by
  obtain ⟨pc, ended, hook, waiting, listed⟩ := w
  cases pc with
  | dialled =>
    have := h.dialled rfl
    rw [this]
    cases ev with
    | go => exact ⟨fun e => (nomatch e), fun _ => rfl, fun e => (nomatch e)⟩
    | lost => exact (nomatch he rfl)
    | wake => exact ⟨fun _ => rfl, fun e => (nomatch e), fun e => (nomatch e)⟩
    | close => exact ⟨fun _ => rfl, fun e => (nomatch e), fun e => (nomatch e)⟩
  | armed =>
    have := h.armed rfl
    rw [this]
    cases ev with
    | go => exact ⟨fun e => (nomatch e), fun e => (nomatch e), fun _ => ⟨rfl, fun e => (nomatch e), fun _ => rfl⟩⟩
    | lost => exact (nomatch he rfl)
    | wake => exact ⟨fun e => (nomatch e), fun _ => rfl, fun e => (nomatch e)⟩
    | close => exact ⟨fun e => (nomatch e), fun _ => rfl, fun e => (nomatch e)⟩
  | returned =>
    obtain ⟨h1, h2, h3⟩ := h.hook rfl
    dsimp only at h1 h2 h3
    subst h1
    cases ev with
    | go => exact h
    | lost => exact ⟨fun e => (nomatch e), fun e => (nomatch e), fun _ => ⟨rfl, fun _ => rfl, h3⟩⟩
    | wake =>
      unfold step
      dsimp only
      split
      · refine ⟨fun e => (nomatch e), fun e => (nomatch e), fun _ => ⟨?_, fun _ => rfl, fun e => (nomatch e)⟩⟩
        unfold closeConn
        cases listed <;> rfl
      · exact h
    | close =>
      refine ⟨fun e => (nomatch e), fun e => (nomatch e), fun _ => ⟨?_, fun _ => rfl, fun e => (nomatch e)⟩⟩
      unfold step closeConn
      cases listed <;> rfl

def rank : Pc → Nat
  | .dialled => 0
  | .armed => 1
  | .returned => 2

theorem rank_step (w : World) (ev : Event) : rank w.pc + [ev].count .go ≥ 2 → rank (step w ev).pc ≥ 2 := by
  obtain ⟨pc, ended, hook, waiting, listed⟩ := w
  cases ev <;> cases pc <;> cases ended <;> cases hook <;> cases waiting <;> cases listed <;> decide

theorem rank_le (w : World) (ev : Event) : rank (step w ev).pc ≤ 2 ∧
    rank w.pc + [ev].count .go ≤ rank (step w ev).pc + (if rank w.pc = 2 then 1 else 0) := by
  obtain ⟨pc, ended, hook, waiting, listed⟩ := w
  cases ev <;> cases pc <;> cases ended <;> cases hook <;> cases waiting <;> cases listed <;> decide

theorem good_run (evs : List Event) (w : World) (h : Good w)
    (hl : ∀ as bs, evs = as ++ .lost :: bs → 2 ≤ rank w.pc + as.count .go) : Good (evs.foldl step w) := by
  induction evs generalizing w with
  | nil => exact h
  | cons ev evs ih =>
    refine ih _ (good_step h ev ?_) ?_
    · intro he
      have := hl [] evs (by rw [he]; rfl)
      rw [List.count_nil, Nat.add_zero] at this
      match hp : w.pc with
      | .returned => rfl
      | .dialled => rw [hp] at this; exact absurd this (by decide)
      | .armed => rw [hp] at this; exact absurd this (by decide)
    · intro as bs e
      have h1 := hl (ev :: as) bs (by rw [e]; rfl)
      have h2 := rank_le w ev
      have h3 := rank_step w ev
      have h4 : (ev :: as).count .go = [ev].count .go + as.count .go := by
        rw [← List.count_append]; rfl
      rw [h4] at h1
      by_cases h5 : rank w.pc + [ev].count .go ≥ 2
      · have := h3 h5; omega
      · split at h2 <;> omega

/-- C148 (listed, partial). A connection of `dialQUICBackend` that is not lost before it is listed, is listed
exactly while it lasts, once the goroutines have done what they have to do. Missing: a connection that is lost
earlier (`ghost_violated`). -/
theorem listed_partial (evs : List Event) (hl : ¬ Spec.LostEarly evs) (hs : Spec.Settled (run evs)) :
    (run evs).listed = true ↔ (run evs).ended = false := by
  have h := good_run evs init ⟨fun _ => rfl, fun e => (nomatch e), fun e => (nomatch e)⟩ (by
    intro as bs e
    have : ¬ as.count .go < 2 := fun hc => hl ⟨as, bs, e, hc⟩
    omega)
  obtain ⟨h1, h2, h3⟩ := h.hook hs.1
  have hw := hs.2
  change (run evs).listed = (run evs).hook at h1
  change (run evs).hook = false → (run evs).ended = true at h2
  change (run evs).hook = true → (run evs).waiting = true at h3
  rw [h1]
  constructor
  · intro hh
    cases he : (run evs).ended with
    | false => rfl
    | true => exact absurd ⟨h3 hh, he⟩ hw
  · intro he
    cases hh : (run evs).hook with
    | true => rfl
    | false => rw [h2 hh] at he; cases he

/-- C148 (violated). When the connection ends after `OnClose` and the goroutine that waits for the end runs before
the connection is listed, it is listed for good: it has ended, and nothing that happens, not even closing it,
removes it from the list. -/
theorem ghost_violated (more : List Event) :
    (run ([.go, .lost, .wake, .go] ++ more)).listed = true ∧
      (run ([.go, .lost, .wake, .go] ++ more)).ended = true := by
  have hw : ∀ (evs : List Event) (w : World), w.pc = .returned → w.ended = true → w.hook = false → w.waiting = false →
      w.listed = true → (evs.foldl step w).listed = true ∧ (evs.foldl step w).ended = true := by
    intro evs
    induction evs with
    | nil => exact fun w _ he _ _ hl => ⟨hl, he⟩
    | cons ev evs ih =>
      intro w h1 h2 h3 h4 h5
      obtain ⟨pc, ended, hook, waiting, listed⟩ := w
      dsimp only at h1 h2 h3 h4 h5
      subst h1 h2 h3 h4 h5
      cases ev <;> exact ih _ rfl rfl rfl rfl rfl
  unfold run
  rw [List.foldl_append]
  exact hw more _ rfl rfl rfl rfl rfl

/-- C148 (at most once). Without the user's close or the end of the connection, it stays listed: nothing else takes a
connection out of the list. -/
theorem stays_listed (evs : List Event) (he : (run evs).ended = false) (hp : (run evs).pc = .returned) :
    (run evs).listed = true := by
  have mono : ∀ (w : World) (ev : Event), (step w ev).ended = false → w.ended = false := by
    intro w ev h
    obtain ⟨pc, ended, hook, waiting, listed⟩ := w
    revert h
    cases ev <;> cases pc <;> cases ended <;> cases hook <;> cases waiting <;> cases listed <;> decide
  have inv : ∀ (evs : List Event) (w : World), (w.ended = false → w.pc = .returned → w.listed = true) →
      (evs.foldl step w).ended = false → (evs.foldl step w).pc = .returned → (evs.foldl step w).listed = true := by
    intro evs
    induction evs with
    | nil => exact fun w h => h
    | cons ev evs ih =>
      intro w h
      refine ih _ ?_
      intro h1 h2
      have h3 := mono w ev h1
      have h4 := h h3
      obtain ⟨pc, ended, hook, waiting, listed⟩ := w
      dsimp only at h3 h4
      subst h3
      revert h1 h2 h4
      cases ev <;> cases pc <;> cases hook <;> cases waiting <;> cases listed <;> decide
  exact inv evs init (fun _ h => (nomatch h)) he hp

/-! ## Examples -/

/-- the PROXY header cannot be written to the first server, the second answers -/
example : dial false true 3 [.connected false, .connected true] =
    { socks := [⟨false, false⟩, ⟨false, true⟩], returned := true, listed := true } := by decide

/-- no server answers -/
example : dial false true 3 [.refused, .connected false, .refused] =
    { socks := [⟨false, true⟩], returned := false, listed := false } := by decide

/-- the second server opens a stream: two connections stay open after it is closed -/
example : close (dial true false 2 [.connected false, .connected true]) =
    { socks := [⟨true, false⟩, ⟨true, false⟩], returned := true, listed := false } := by decide

/-- lost after it was listed -/
example : Spec.Settled (run [.go, .go, .lost, .wake]) ∧ (run [.go, .go, .lost, .wake]).listed = false :=
  ⟨⟨rfl, fun h => (nomatch h.1)⟩, rfl⟩

example : ¬ Spec.LostEarly [.go, .go, .lost, .wake] := by
  rintro ⟨as, bs, h, hc⟩
  match as, h with
  | [], h => cases h
  | [_], h => cases h
  | [_, _], h => cases h; exact absurd hc (by decide)
  | [_, _, _], h => cases h
  | _ :: _ :: _ :: _ :: as, h =>
    simp only [List.cons_append, List.cons.injEq] at h
    have := h.2.2.2.2
    cases as <;> cases this

end Verif.Sockets
