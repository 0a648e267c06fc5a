import Verif.Model.Handoff
import Verif.Props.Lifecycle
/-!
C125: every connection handed over to a backend's HTTP server is served or closed, and handing
over never ends the process.
-/
namespace Verif.Handoff

open Verif.Lifecycle (Life)

/-! ## Specification -/

/-- The item was served, or its end was closed. -/
def Spec.Done (s : St) (i : Nat) : Prop :=
  ∃ it, s.items[i]? = some it ∧ (it.phase = .served ∨ it.closed = true)

/-- There is still a way for the item to be served or closed, other than that the proxy is
stopped or that a change of the configuration no longer permits the connection. -/
def Spec.Hope (s : St) (i : Nat) : Prop := ∃ ops, Op.closeConn i ∉ ops ∧ Spec.Done (s.run ops) i

/-- No close of the backend among the steps: no reload, no stop. -/
def Spec.Quiet (ops : List Op) : Prop := Op.graceful ∉ ops ∧ Op.hard ∉ ops

/-! ## While the backend is in use -/

structure Running (s : St) : Prop where
  alive : s.dead = false
  serving : s.serving = true
  notStopped : s.stopCalled = false
  listening : s.listenerClosed = false
  chan : s.life.chanCloses = 0
  up : s.life.shutdown = false
  none : ∀ it ∈ s.items, it.phase ≠ .swallowed

theorem inc_running {l : Life} (h0 : l.chanCloses = 0) (h1 : l.shutdown = false) (d : Int) :
    (l.incInFlight d).chanCloses = 0 ∧ (l.incInFlight d).shutdown = false := by
  unfold Life.incInFlight
  simp [h0, h1]

theorem Running.set {s : St} (h : Running s) (i : Nat) (it : Item) (hit : it.phase ≠ .swallowed) :
    Running (s.set i it) :=
  { alive := h.alive, serving := h.serving, notStopped := h.notStopped, listening := h.listening,
    chan := h.chan, up := h.up,
    none := fun x hx => by
      rcases List.mem_or_eq_of_mem_set hx with h' | h'
      · exact h.none x h'
      · rw [h']; exact hit }

theorem Running.life {s : St} (h : Running s) (d : Int) :
    Running { s with life := s.life.incInFlight d } :=
  { alive := h.alive, serving := h.serving, notStopped := h.notStopped, listening := h.listening,
    chan := (inc_running h.chan h.up d).1, up := (inc_running h.chan h.up d).2, none := h.none }

theorem Running.uncount {s : St} (h : Running s) (it : Item) : Running (s.uncount it) := by
  unfold St.uncount
  split
  · exact h.life _
  · exact h

theorem Running.closeItem {s : St} (h : Running s) (i : Nat) (it : Item) (ph : Phase)
    (hp : ph ≠ .swallowed) : Running (s.closeItem i it ph) := by
  unfold St.closeItem
  split
  · exact h.set i _ hp
  · exact (h.set i _ hp).uncount it

theorem Running.stepItem {s : St} (h : Running s) (i : Nat) (it : Item) (op : Op)
    (hit : it.phase ≠ .swallowed) : Running (s.stepItem i it op) := by
  have hc : s.chanClosed = false := by simp [St.chanClosed, h.chan]
  unfold St.stepItem
  split
  · split
    · rw [hc]; exact h.set i _ (by simp)
    · exact h
  · split
    · exact h.set i _ (by simp)
    · exact h
  · rw [h.listening]; simpa using h
  · rw [hc]; simpa using h
  · split
    · exact h.closeItem i it _ (by simp)
    · exact h
  · split
    · exact h.closeItem i it _ hit
    · exact h
  · exact h

theorem Running.step {s : St} (h : Running s) (op : Op) (h1 : op ≠ .graceful) (h2 : op ≠ .hard) :
    Running (s.step op) := by
  unfold St.step
  rw [if_neg (by simp [h.alive])]
  have items : ∀ (i : Nat) (o : Op), Running (s.onItem i o) := by
    intro i o
    unfold St.onItem
    split
    · rename_i it hi
      exact h.stepItem i _ o (h.none it (List.mem_of_getElem? hi))
    · exact h
  cases op with
  | tcp =>
    dsimp only
    rw [if_neg (by simp [h.up])]
    have := h.life 1
    exact { this with
      none := fun x hx => by
        rw [List.mem_append] at hx
        rcases hx with hx | hx
        · exact h.none x hx
        · rw [List.mem_singleton] at hx; rw [hx]; simp }
  | quic =>
    dsimp only
    rw [if_neg (by simp [h.up])]
    have := h.life 1
    exact { this with none := h.none }
  | stream q =>
    dsimp only
    split
    · exact { h with
        none := fun x hx => by
          rw [List.mem_append] at hx
          rcases hx with hx | hx
          · exact h.none x hx
          · rw [List.mem_singleton] at hx; rw [hx]; simp }
    · exact h
  | quicEnds q =>
    dsimp only
    split
    · have := h.life (-1)
      exact { this with none := h.none }
    · exact h
  | graceful => exact absurd rfl h1
  | hard => exact absurd rfl h2
  | stopListener => dsimp only; rw [h.notStopped]; simpa using h
  | serveReturns =>
    dsimp only
    rw [h.listening]
    simp only [Bool.false_eq_true, false_or, St.chanClosed, h.chan]
    simpa using h
  | send i => exact items i _
  | accept i => exact items i _
  | drain i => exact items i _
  | panic i => exact items i _
  | finish i => exact items i _
  | closeConn i => exact items i _

theorem running_run {s : St} (h : Running s) (ops : List Op) (hq : Spec.Quiet ops) :
    Running (s.run ops) := by
  induction ops generalizing s with
  | nil => exact h
  | cons op ops ih =>
    obtain ⟨h1, h2⟩ := hq
    simp only [List.mem_cons, not_or] at h1 h2
    exact ih (h.step op (Ne.symm h1.1) (Ne.symm h2.1)) ⟨h1.2, h2.2⟩

theorem running_init : Running {} := by constructor <;> simp

/-- C125 (partial). As long as the backend is in use (no reload, no stop), in every
interleaving: the process is alive, no connection or stream is swallowed, and each that waits
to be handed over is served by the next accept. Missing: after a reload, see
`served_or_closed_violated`. -/
theorem in_use_partial (ops : List Op) (hq : Spec.Quiet ops) :
    let s := ({} : St).run ops
    s.dead = false ∧
    ∀ i it, s.items[i]? = some it →
      it.phase ≠ .swallowed ∧
      (it.phase = .sending → (s.step (.accept i)).items[i]? = some { it with phase := .served }) := by
  intro s
  have h : Running s := running_run running_init ops hq
  refine ⟨h.alive, fun i it hi => ⟨h.none it (List.mem_of_getElem? hi), fun hs => ?_⟩⟩
  obtain ⟨hlt, _⟩ := List.getElem?_eq_some_iff.mp hi
  unfold St.step
  rw [if_neg (by simp [h.alive])]
  unfold St.onItem
  simp only [hi]
  unfold St.stepItem
  simp only [hs, h.serving, St.chanClosed, h.chan, St.set]
  simp [hlt]

/-- Two connections and a stream; one is served, one waits, one waits to start. -/
example : (({} : St).run [.tcp, .quic, .tcp, .stream 0, .send 0, .send 1, .accept 1]).items =
    [{ phase := .sending }, { phase := .served }, { quic := some 0 }] := by decide

/-! ## What is swallowed stays so -/

theorem swallowed_step {s : St} {i : Nat} {it : Item} (hi : s.items[i]? = some it)
    (hs : it.phase = .swallowed) (op : Op) (hop : op ≠ .closeConn i) :
    (s.step op).items[i]? = some it := by
  have hset : ∀ (j : Nat) (jt x : Item), s.items[j]? = some jt → jt.phase ≠ .swallowed →
      (s.items.set j x)[i]? = some it := by
    intro j jt x hj hn
    rw [List.getElem?_set]
    by_cases hji : j = i
    · subst hji
      rw [hi] at hj; cases hj
      exact absurd hs hn
    · rw [if_neg hji]; exact hi
  have hset' : ∀ (j : Nat) (x : Item), j ≠ i → (s.items.set j x)[i]? = some it := by
    intro j x hji
    rw [List.getElem?_set, if_neg hji]; exact hi
  have hun : ∀ (t : St) (x : Item), t.items[i]? = some it → (t.uncount x).items[i]? = some it := by
    intro t x h
    unfold St.uncount
    split <;> exact h
  have hclose : ∀ (j : Nat) (jt : Item) (ph : Phase), s.items[j]? = some jt → jt.phase ≠ .swallowed →
      (s.closeItem j jt ph).items[i]? = some it := by
    intro j jt ph hj hn
    unfold St.closeItem
    split
    · exact hset j jt _ hj hn
    · exact hun _ _ (hset j jt _ hj hn)
  have hclose' : ∀ (j : Nat) (jt : Item) (ph : Phase), j ≠ i →
      (s.closeItem j jt ph).items[i]? = some it := by
    intro j jt ph hj
    unfold St.closeItem
    split
    · exact hset' j _ hj
    · exact hun _ _ (hset' j _ hj)
  have hblow : ∀ (j : Nat) (jt : Item), s.items[j]? = some jt → jt.phase ≠ .swallowed →
      (s.blowUp j jt).items[i]? = some it := by
    intro j jt hj hn
    unfold St.blowUp
    split
    · exact hclose j jt _ hj hn
    · exact hi
  have hitem : ∀ (j : Nat) (o : Op), o ≠ .closeConn i → (∀ k, o = .closeConn k → k = j) →
      (s.onItem j o).items[i]? = some it := by
    intro j o ho hk
    unfold St.onItem
    split
    · rename_i jt hj
      unfold St.stepItem
      split
      · split
        · rename_i hp
          have hn : jt.phase ≠ .swallowed := by rw [hp]; simp
          split
          · exact hblow j jt hj hn
          · exact hset j jt _ hj hn
        · exact hi
      · split
        · rename_i hp; exact hset j jt _ hj (by rw [hp.1]; simp)
        · exact hi
      · split
        · rename_i hp; exact hset j jt _ hj (by rw [hp.1]; simp)
        · exact hi
      · split
        · rename_i hp; exact hblow j jt hj (by rw [hp.1]; simp)
        · exact hi
      · split
        · rename_i hp
          refine hclose j jt _ hj ?_
          rcases hp with hp | hp <;> rw [hp] <;> simp
        · exact hi
      · rename_i k
        split
        · have := hk k rfl
          subst this
          exact hclose' _ _ _ (by simpa using ho)
        · exact hi
      · exact hi
    · exact hi
  have happ : ∀ x : Item, (s.items ++ [x])[i]? = some it := by
    intro x
    obtain ⟨hlt, _⟩ := List.getElem?_eq_some_iff.mp hi
    rw [List.getElem?_append_left hlt]; exact hi
  unfold St.step
  split
  · exact hi
  · cases op with
    | tcp => dsimp only; split; exact hi; exact happ _
    | quic => dsimp only; split <;> exact hi
    | stream q => dsimp only; split; exact happ _; exact hi
    | quicEnds q => dsimp only; split <;> exact hi
    | graceful => dsimp only; split <;> exact hi
    | hard => dsimp only; split <;> exact hi
    | stopListener => dsimp only; split <;> exact hi
    | serveReturns => dsimp only; split <;> exact hi
    | send j => exact hitem j _ (by simp) (by simp)
    | accept j => exact hitem j _ (by simp) (by simp)
    | drain j => exact hitem j _ (by simp) (by simp)
    | panic j => exact hitem j _ (by simp) (by simp)
    | finish j => exact hitem j _ (by simp) (by simp)
    | closeConn j => exact hitem j _ hop (fun k h => by cases h; rfl)

/-- C125 (swallowed for good). A connection or stream that the emptying loop has received is
never served and never closed, unless the proxy is stopped or a change of the configuration no
longer permits the connection (or the peer ends the QUIC connection of the stream). -/
theorem swallowed_forever {s : St} {i : Nat} {it : Item} (hi : s.items[i]? = some it)
    (hs : it.phase = .swallowed) (hc : it.closed = false) : ¬ Spec.Hope s i := by
  have hrun : ∀ ops, Op.closeConn i ∉ ops → (s.run ops).items[i]? = some it := by
    intro ops hno
    induction ops generalizing s with
    | nil => exact hi
    | cons op ops ih =>
      simp only [List.mem_cons, not_or] at hno
      exact ih (swallowed_step hi hs op (Ne.symm hno.1)) hno.2
  rintro ⟨ops, hno, jt, hj, hd⟩
  rw [hrun ops hno] at hj
  cases hj
  rcases hd with h | h
  · rw [hs] at h; cases h
  · rw [hc] at h; cases h

/-- C125 (violated, TCP). A connection whose handshake is going on when a changed configuration
is taken over is handed to the old backend's channel afterwards; the closed listener swallows
it. It is neither served nor closed. -/
theorem served_or_closed_violated :
    ¬ ∀ (ops : List Op) (i : Nat), i < (({} : St).run ops).items.length →
      (({} : St).run ops).dead = false → Spec.Hope (({} : St).run ops) i := by
  intro h
  refine swallowed_forever (s := ({} : St).run [.tcp, .graceful, .stopListener, .send 0, .drain 0]) (i := 0)
    (it := { phase := .swallowed }) (by decide) rfl rfl (h _ 0 (by decide) (by decide))

/-- C125 (violated, QUIC). After a reload, the QUIC connections to a backend that serves HTTP
stay open, and what a client sends on a stream it opens then is swallowed: no race is needed. -/
theorem late_stream_violated :
    ¬ ∀ (ops : List Op) (q i : Nat), (({} : St).run ops).quics[q]? = some true →
      (({} : St).run ops).items[i]? = some { quic := some q, phase := .sending } →
      Spec.Hope ((({} : St).run ops).step (.drain i)) i := by
  intro h
  refine swallowed_forever (s := (({} : St).run [.quic, .graceful, .stopListener, .serveReturns, .stream 0, .send 0]).step (.drain 0))
    (i := 0) (it := { quic := some 0, phase := .swallowed }) (by decide) rfl rfl (h _ 0 0 (by decide) (by decide))

/-! ## Counting -/

/-- A TCP connection that is still counted. -/
def Spec.counted (it : Item) : Bool := it.quic.isNone && !it.closed

theorem countP_set' {α : Type} {p : α → Bool} {l : List α} {i : Nat} {a b : α} (h : l[i]? = some a) :
    (l.set i b).countP p + (if p a then 1 else 0) = l.countP p + (if p b then 1 else 0) := by
  induction l generalizing i with
  | nil => simp at h
  | cons x l ih =>
    cases i with
    | zero =>
      simp at h; subst h
      simp only [List.set_cons_zero, List.countP_cons]; omega
    | succ i =>
      simp only [List.set_cons_succ, List.countP_cons]
      have := ih (i := i) (by simpa using h)
      omega

/-- Invariant of runs without hard closes. -/
structure Inv (s : St) : Prop where
  count : s.life.inFlight = (s.items.countP Spec.counted : Int) + (s.quics.countP id : Int)
  chan : s.life.chanCloses ≠ 0 → s.life.inFlight = 0 ∧ s.life.shutdown = true ∧ s.life.server = false
  server : s.life.server = false → s.life.chanCloses ≠ 0

theorem inc_inv {l : Life} (d : Int) (h1 : l.chanCloses ≠ 0 → l.inFlight + d = 0 ∧ l.shutdown = true ∧ l.server = false)
    (h2 : l.server = false → l.chanCloses ≠ 0) :
    (l.incInFlight d).inFlight = l.inFlight + d ∧
    ((l.incInFlight d).chanCloses ≠ 0 → (l.incInFlight d).inFlight = 0 ∧
      (l.incInFlight d).shutdown = true ∧ (l.incInFlight d).server = false) ∧
    ((l.incInFlight d).server = false → (l.incInFlight d).chanCloses ≠ 0) := by
  unfold Life.incInFlight
  dsimp only
  split
  · rename_i h
    exact ⟨rfl, fun _ => ⟨h.1, h.2.1, rfl⟩, fun _ => by simp⟩
  · exact ⟨rfl, h1, h2⟩

theorem Inv.setSame {s : St} (h : Inv s) {i : Nat} {a b : Item} (ha : s.items[i]? = some a)
    (hab : Spec.counted a = Spec.counted b) : Inv (s.set i b) := by
  have := countP_set' (p := Spec.counted) (b := b) ha
  rw [hab] at this
  refine ⟨?_, h.chan, h.server⟩
  have hc := h.count
  simp only [St.set]
  omega

theorem Inv.closeItem {s : St} (h : Inv s) {i : Nat} {it : Item} (hi : s.items[i]? = some it)
    (ph : Phase) : Inv (s.closeItem i it ph) := by
  unfold St.closeItem
  split
  · exact h.setSame hi (by simp [Spec.counted])
  · rename_i hcl
    unfold St.uncount
    have hc := h.count
    split
    · rename_i hq
      have hset := countP_set' (p := Spec.counted) (b := { it with phase := ph, closed := true }) hi
      have c1 : Spec.counted it = true := by simp [Spec.counted, hq, hcl]
      have c2 : Spec.counted { it with phase := ph, closed := true } = false := by simp [Spec.counted]
      rw [c1, c2] at hset
      simp only [if_true, Bool.false_eq_true, if_false] at hset
      have hopen : s.life.chanCloses = 0 := by
        apply Classical.byContradiction
        intro hne
        have := (h.chan hne).1
        omega
      obtain ⟨k1, k2, k3⟩ := inc_inv (l := s.life) (-1) (fun hne => absurd hopen hne) h.server
      refine ⟨?_, k2, k3⟩
      simp only [St.set]
      rw [k1]
      omega
    · rename_i q hq
      exact h.setSame hi (by simp [Spec.counted, hq])

theorem Inv.stepItem {s : St} (h : Inv s) {i : Nat} {it : Item} (hi : s.items[i]? = some it) (op : Op) :
    Inv (s.stepItem i it op) := by
  have blow : Inv (s.blowUp i it) := by
    unfold St.blowUp
    split
    · exact h.closeItem hi _
    · exact ⟨h.count, h.chan, h.server⟩
  have same : ∀ ph : Phase, Inv (s.set i { it with phase := ph }) :=
    fun ph => h.setSame hi (by simp [Spec.counted])
  unfold St.stepItem
  split
  · split
    · split
      · exact blow
      · exact same _
    · exact h
  · split
    · exact same _
    · exact h
  · split
    · exact same _
    · exact h
  · split
    · exact blow
    · exact h
  · split
    · exact h.closeItem hi _
    · exact h
  · split
    · exact h.closeItem hi _
    · exact h
  · exact h

theorem Inv.step {s : St} (h : Inv s) (op : Op) (hh : op ≠ .hard) : Inv (s.step op) := by
  have hc := h.count
  have items : ∀ (i : Nat) (o : Op), Inv (s.onItem i o) := by
    intro i o
    unfold St.onItem
    split
    · rename_i it hi; exact h.stepItem hi o
    · exact h
  have arrive : s.life.shutdown = false → s.life.chanCloses = 0 := by
    intro hs
    apply Classical.byContradiction
    intro hne
    have := (h.chan hne).2.1
    rw [hs] at this; cases this
  unfold St.step
  split
  · exact h
  · cases op with
    | tcp =>
      dsimp only
      split
      · exact h
      · rename_i hs
        have h0 := arrive (by simpa using hs)
        obtain ⟨k1, k2, k3⟩ := inc_inv (l := s.life) 1 (fun hne => absurd h0 hne) h.server
        refine ⟨?_, k2, k3⟩
        simp only [k1, List.countP_append, List.countP_singleton]
        have : Spec.counted {} = true := by decide
        rw [this]
        simp only [if_true]
        omega
    | quic =>
      dsimp only
      split
      · exact h
      · rename_i hs
        have h0 := arrive (by simpa using hs)
        obtain ⟨k1, k2, k3⟩ := inc_inv (l := s.life) 1 (fun hne => absurd h0 hne) h.server
        refine ⟨?_, k2, k3⟩
        simp only [k1, List.countP_append, List.countP_singleton, id]
        simp only [if_true]
        omega
    | stream q =>
      dsimp only
      split
      · refine ⟨?_, h.chan, h.server⟩
        simp only [List.countP_append, List.countP_singleton]
        have : Spec.counted { quic := some q } = false := by simp [Spec.counted]
        rw [this]
        simpa using hc
      · exact h
    | quicEnds q =>
      dsimp only
      split
      · rename_i hq
        have hset := countP_set' (p := id) (b := false) hq
        simp only [id, if_true, Bool.false_eq_true, if_false] at hset
        have hopen : s.life.chanCloses = 0 := by
          apply Classical.byContradiction
          intro hne
          have := (h.chan hne).1
          omega
        obtain ⟨k1, k2, k3⟩ := inc_inv (l := s.life) (-1) (fun hne => absurd hopen hne) h.server
        refine ⟨?_, k2, k3⟩
        simp only [k1]
        have : List.countP id (s.quics.set q false) + 1 = List.countP id s.quics := hset
        omega
      · exact h
    | graceful =>
      dsimp only
      split
      · rename_i hs
        unfold Life.close
        simp only [hs, Bool.true_eq_false, if_false, Bool.false_eq_true]
        split
        · rename_i hz
          exact ⟨hc, fun _ => ⟨hz, rfl, rfl⟩, fun _ => by simp⟩
        · refine ⟨hc, fun hne => ?_, fun hx => ?_⟩
          · have := (h.chan hne).2.2
            rw [hs] at this; cases this
          · cases hx
      · exact h
    | hard => exact absurd rfl hh
    | stopListener => dsimp only; split <;> exact ⟨h.count, h.chan, h.server⟩
    | serveReturns => dsimp only; split <;> exact ⟨h.count, h.chan, h.server⟩
    | send j => exact items j _
    | accept j => exact items j _
    | drain j => exact items j _
    | panic j => exact items j _
    | finish j => exact items j _
    | closeConn j => exact items j _

theorem inv_run {s : St} (h : Inv s) (ops : List Op) (hh : Op.hard ∉ ops) : Inv (s.run ops) := by
  induction ops generalizing s with
  | nil => exact h
  | cons op ops ih =>
    simp only [List.mem_cons, not_or] at hh
    exact ih (h.step op (Ne.symm hh.1)) hh.2

theorem inv_init : Inv {} := by constructor <;> simp

/-- C125 (swallowed connections count for ever). Without a hard stop, a backend that has
swallowed a TCP connection is never released: the connection stays in its count, and the
channel, the emptying goroutine and the entry in the list of open connections remain. -/
theorem never_released (ops : List Op) (hh : Op.hard ∉ ops) (i : Nat) (it : Item)
    (hi : (({} : St).run ops).items[i]? = some it) (hq : it.quic = none)
    (hs : it.phase = .swallowed) (hcl : it.closed = false) :
    (({} : St).run ops).life.chanCloses = 0 ∧ 0 < (({} : St).run ops).life.inFlight := by
  have h := inv_run inv_init ops hh
  have hpos : 0 < (({} : St).run ops).items.countP Spec.counted := by
    rw [List.countP_pos_iff]
    exact ⟨it, List.mem_of_getElem? hi, by simp [Spec.counted, hq, hcl]⟩
  have hc := h.count
  have hlt : 0 < (({} : St).run ops).life.inFlight := by omega
  refine ⟨?_, hlt⟩
  apply Classical.byContradiction
  intro hne
  have := (h.chan hne).1
  omega

example : (({} : St).run [.tcp, .graceful, .stopListener, .send 0, .drain 0]).items[0]? =
    some { phase := .swallowed } := by decide

/-- C125 (no send on a closed channel, TCP). Without a hard stop, once the channel is closed all
TCP connections of the backend are closed and all its QUIC connections have ended: a panic of
the handler of a TCP connection harms nobody. -/
theorem closed_chan_drained (ops : List Op) (hh : Op.hard ∉ ops)
    (hc : (({} : St).run ops).life.chanCloses ≠ 0) :
    (∀ it ∈ (({} : St).run ops).items, it.quic = none → it.closed = true) ∧
    ∀ q : Nat, (({} : St).run ops).quics[q]? ≠ some true := by
  have h := inv_run inv_init ops hh
  have hz := (h.chan hc).1
  have hcount := h.count
  have h1 : (({} : St).run ops).items.countP Spec.counted = 0 := by omega
  have h2 : (({} : St).run ops).quics.countP id = 0 := by omega
  rw [List.countP_eq_zero] at h1 h2
  refine ⟨fun it hit hq => ?_, fun q hq => ?_⟩
  · have := h1 it hit
    simpa [Spec.counted, hq] using this
  · exact h2 true (List.mem_of_getElem? hq) rfl

example : (({} : St).run [.tcp, .send 0, .accept 0, .graceful, .finish 0]).life.chanCloses = 1 := by decide

/-! ## The process -/

theorem noStream_step {s : St} (hd : s.dead = false) (hn : ∀ it ∈ s.items, it.quic = none) (op : Op)
    (hop : ∀ q, op ≠ .stream q) :
    (s.step op).dead = false ∧ ∀ it ∈ (s.step op).items, it.quic = none := by
  have hset : ∀ (j : Nat) (x : Item), x.quic = none → ∀ it ∈ (s.items.set j x), it.quic = none := by
    intro j x hx it hit
    rcases List.mem_or_eq_of_mem_set hit with h | h
    · exact hn it h
    · rw [h]; exact hx
  have hun : ∀ (t : St) (x : Item), t.dead = false → (∀ it ∈ t.items, it.quic = none) →
      (t.uncount x).dead = false ∧ ∀ it ∈ (t.uncount x).items, it.quic = none := by
    intro t x h1 h2
    unfold St.uncount
    split <;> exact ⟨h1, h2⟩
  have hclose : ∀ (j : Nat) (x : Item) (ph : Phase), x.quic = none →
      (s.closeItem j x ph).dead = false ∧ ∀ it ∈ (s.closeItem j x ph).items, it.quic = none := by
    intro j x ph hx
    unfold St.closeItem
    split
    · exact ⟨hd, hset j _ hx⟩
    · exact hun _ _ hd (hset j _ hx)
  have hitem : ∀ (j : Nat) (o : Op),
      (s.onItem j o).dead = false ∧
      ∀ it ∈ (s.onItem j o).items, it.quic = none := by
    intro j o
    unfold St.onItem
    split
    · rename_i jt hj
      have hjq := hn jt (List.mem_of_getElem? hj)
      have blow : (s.blowUp j jt).dead = false ∧ ∀ it ∈ (s.blowUp j jt).items, it.quic = none := by
        unfold St.blowUp
        split
        · exact hclose j _ _ hjq
        · rename_i q hq; rw [hjq] at hq; cases hq
      unfold St.stepItem
      split
      · split
        · split
          · exact blow
          · exact ⟨hd, hset j _ hjq⟩
        · exact ⟨hd, hn⟩
      · split
        · exact ⟨hd, hset j _ hjq⟩
        · exact ⟨hd, hn⟩
      · split
        · exact ⟨hd, hset j _ hjq⟩
        · exact ⟨hd, hn⟩
      · split
        · exact blow
        · exact ⟨hd, hn⟩
      · split
        · exact hclose j _ _ hjq
        · exact ⟨hd, hn⟩
      · rw [if_pos hjq]
        exact hclose j _ _ hjq
      · exact ⟨hd, hn⟩
    · exact ⟨hd, hn⟩
  unfold St.step
  rw [if_neg (by simp [hd])]
  cases op with
  | tcp =>
    dsimp only
    split
    · exact ⟨hd, hn⟩
    · refine ⟨hd, fun it hit => ?_⟩
      rw [List.mem_append] at hit
      rcases hit with h | h
      · exact hn it h
      · rw [List.mem_singleton] at h; rw [h]
  | quic => dsimp only; split <;> exact ⟨hd, hn⟩
  | stream q => exact absurd rfl (hop q)
  | quicEnds q => dsimp only; split <;> exact ⟨hd, hn⟩
  | graceful => dsimp only; split <;> exact ⟨hd, hn⟩
  | hard => dsimp only; split <;> exact ⟨hd, hn⟩
  | stopListener => dsimp only; split <;> exact ⟨hd, hn⟩
  | serveReturns => dsimp only; split <;> exact ⟨hd, hn⟩
  | send j => exact hitem j _
  | accept j => exact hitem j _
  | drain j => exact hitem j _
  | panic j => exact hitem j _
  | finish j => exact hitem j _
  | closeConn j => exact hitem j _

/-- C125 (partial). Handing over TCP connections never ends the process, under every
interleaving with reloads and stops. Missing: QUIC streams, see `alive_violated`. -/
theorem alive_partial (ops : List Op) (hn : ∀ q, Op.stream q ∉ ops) : (({} : St).run ops).dead = false := by
  have key : ∀ (s : St), s.dead = false → (∀ it ∈ s.items, it.quic = none) → (s.run ops).dead = false := by
    induction ops with
    | nil => intro s h _; exact h
    | cons op ops ih =>
      intro s h1 h2
      obtain ⟨a, b⟩ := noStream_step h1 h2 op (fun q hq => hn q (by rw [hq]; simp))
      exact ih (fun q hq => hn q (by simp [hq])) _ a b
  exact key {} rfl (by simp)

/-- The panic of a TCP handler is recovered. -/
example : (({} : St).run [.tcp, .hard, .send 0]).items = [{ phase := .done, closed := true }] ∧
    (({} : St).run [.tcp, .hard, .send 0]).dead = false := by decide

/-- C125 (violated). After a reload, a client of an old QUIC connection opens a stream and ends
the connection. The end of the last connection closes the channel. If the stream's handler gets
to the send after that, it panics; nothing recovers it, and the whole process ends. No stop of
the proxy is involved. -/
theorem alive_violated : ¬ ∀ ops : List Op, Op.hard ∉ ops → (({} : St).run ops).dead = false := by
  intro h
  have := h [.quic, .graceful, .stream 0, .quicEnds 0, .send 0] (by decide)
  revert this; decide

/-! ## The HTTP server of a closed backend ends -/

/-- C125 (stop). Closing a backend that has a server ends its HTTP server: with a hard stop because the channel
is closed, even before the listener is; with a graceful one once the listener is closed. A hard stop closes
the listener too. -/
theorem stop_ends_serving (s : St) (hd : s.dead = false) (hs : s.life.server = true) :
    (s.run [.hard, .serveReturns]).serving = false ∧
    (s.run [.hard, .stopListener]).listenerClosed = true ∧
    (s.run [.graceful, .stopListener, .serveReturns]).serving = false := by
  have h1 : s.step .hard = { s with life := s.life.close true, stopCalled := true } := by
    unfold St.step
    rw [hd, hs]
    rfl
  have h2 : s.step .graceful = { s with life := s.life.close false, stopCalled := true } := by
    unfold St.step
    rw [hd, hs]
    rfl
  have hc : (s.life.close true).chanCloses ≠ 0 := by
    unfold Life.close
    rw [hs]
    simp
  refine ⟨?_, ?_, ?_⟩
  · show ((s.step .hard).step .serveReturns).serving = false
    rw [h1]
    unfold St.step
    dsimp only
    rw [hd, if_neg (by decide), if_pos (.inr (by simpa [St.chanClosed] using hc))]
  · show ((s.step .hard).step .stopListener).listenerClosed = true
    rw [h1]
    unfold St.step
    dsimp only
    rw [hd]
    rfl
  · show (((s.step .graceful).step .stopListener).step .serveReturns).serving = false
    rw [h2]
    have h3 : ({ s with life := s.life.close false, stopCalled := true } : St).step .stopListener =
        { s with life := s.life.close false, stopCalled := true, listenerClosed := true } := by
      unfold St.step
      dsimp only
      rw [hd]
      rfl
    rw [h3]
    unfold St.step
    dsimp only
    rw [hd, if_neg (by decide), if_pos (.inl rfl)]

/-- C125. The end of the process is final. -/
theorem dead_final (s : St) (hd : s.dead = true) (ops : List Op) : s.run ops = s := by
  induction ops with
  | nil => rfl
  | cons op ops ih =>
    show (s.step op).run ops = s
    have : s.step op = s := by
      unfold St.step
      rw [if_pos hd]
    rw [this, ih]

/-- C125. New streams come only from QUIC connections that are there and have not ended. -/
theorem stream_of_open (s : St) (q : Nat) (h : s.step (.stream q) ≠ s) : s.quics[q]? = some true := by
  unfold St.step at h
  split at h
  · exact absurd rfl h
  · dsimp only at h
    split at h
    · assumption
    · exact absurd rfl h

/-- Non-vacuity: a running backend with an open QUIC connection, a process that has ended. -/
example : (({} : St).run [.quic]).dead = false ∧ (({} : St).run [.quic]).life.server = true ∧
    (({} : St).run [.quic]).step (.stream 0) ≠ ({} : St).run [.quic] ∧
    (({} : St).run [.quic, .graceful, .stream 0, .quicEnds 0, .send 0]).dead = true := by
  decide

/-- What may become of a connection or stream in one step. -/
def Spec.Moves (s : St) (a b : Phase) : Prop :=
  a = b ∨ (a = .before ∧ b = .sending ∧ s.chanClosed = false) ∨
    (a = .sending ∧ b = .served ∧ s.serving = true ∧ s.chanClosed = false) ∨
    (a = .sending ∧ b = .swallowed ∧ s.listenerClosed = true ∧ s.chanClosed = false) ∨
    ((a = .before ∨ a = .served ∨ a = .sending ∧ s.chanClosed = true) ∧ b = .done)

/-- C125. A connection or stream is handed over only through the open channel: to the HTTP server while it serves, and
to the loop that swallows only once the listener is closed. -/
theorem handed_over (s : St) (op : Op) (i : Nat) (it it' : Item) (hi : s.items[i]? = some it)
    (hi' : (s.step op).items[i]? = some it') : Spec.Moves s it.phase it'.phase := by
  have same : s.items[i]? = some it' → Spec.Moves s it.phase it'.phase := by
    intro h
    rw [hi] at h
    cases h
    exact .inl rfl
  have hset : ∀ (j : Nat) (jt x : Item), s.items[j]? = some jt → Spec.Moves s jt.phase x.phase →
      (s.items.set j x)[i]? = some it' → Spec.Moves s it.phase it'.phase := by
    intro j jt x hj hm h
    rw [List.getElem?_set] at h
    by_cases hji : j = i
    · subst hji
      rw [hi] at hj; cases hj
      rw [if_pos rfl] at h
      split at h
      · cases h; exact hm
      · cases h
    · rw [if_neg hji] at h; exact same h
  have hclose : ∀ (j : Nat) (jt : Item) (ph : Phase), s.items[j]? = some jt → Spec.Moves s jt.phase ph →
      (s.closeItem j jt ph).items[i]? = some it' → Spec.Moves s it.phase it'.phase := by
    intro j jt ph hj hm h
    unfold St.closeItem at h
    split at h
    · exact hset j jt _ hj hm h
    · unfold St.uncount at h
      split at h <;> exact hset j jt { jt with phase := ph, closed := true } hj hm h
  have hblow : ∀ (j : Nat) (jt : Item), s.items[j]? = some jt → Spec.Moves s jt.phase .done →
      (s.blowUp j jt).items[i]? = some it' → Spec.Moves s it.phase it'.phase := by
    intro j jt hj hm h
    unfold St.blowUp at h
    split at h
    · exact hclose j jt _ hj hm h
    · exact same h
  have hitem : ∀ (j : Nat) (o : Op), (s.onItem j o).items[i]? = some it' → Spec.Moves s it.phase it'.phase := by
    intro j o h
    unfold St.onItem at h
    split at h
    · rename_i jt hj
      unfold St.stepItem at h
      split at h
      · split at h
        · rename_i hp
          split at h
          · exact hblow j jt hj (.inr (.inr (.inr (.inr ⟨.inl hp, rfl⟩)))) h
          · rename_i hc
            exact hset j jt { jt with phase := .sending } hj (.inr (.inl ⟨hp, rfl, by simpa using hc⟩)) h
        · exact same h
      · split at h
        · rename_i hp
          exact hset j jt { jt with phase := .served } hj (.inr (.inr (.inl ⟨hp.1, rfl, hp.2⟩))) h
        · exact same h
      · split at h
        · rename_i hp
          exact hset j jt { jt with phase := .swallowed } hj (.inr (.inr (.inr (.inl ⟨hp.1, rfl, hp.2⟩)))) h
        · exact same h
      · split at h
        · rename_i hp
          exact hblow j jt hj (.inr (.inr (.inr (.inr ⟨.inr (.inr hp), rfl⟩)))) h
        · exact same h
      · split at h
        · rename_i hp
          refine hclose j jt _ hj (.inr (.inr (.inr (.inr ⟨?_, rfl⟩)))) h
          rcases hp with hp | hp
          · exact .inl hp
          · exact .inr (.inl hp)
        · exact same h
      · split at h
        · exact hclose j jt _ hj (.inl rfl) h
        · exact same h
      · exact same h
    · exact same h
  have happ : ∀ x : Item, (s.items ++ [x])[i]? = some it' → Spec.Moves s it.phase it'.phase := by
    intro x h
    obtain ⟨hlt, _⟩ := List.getElem?_eq_some_iff.mp hi
    rw [List.getElem?_append_left hlt] at h
    exact same h
  unfold St.step at hi'
  split at hi'
  · exact same hi'
  · cases op with
    | tcp => dsimp only at hi'; split at hi'; exact same hi'; exact happ _ hi'
    | quic => dsimp only at hi'; split at hi' <;> exact same hi'
    | stream q => dsimp only at hi'; split at hi'; exact happ _ hi'; exact same hi'
    | quicEnds q => dsimp only at hi'; split at hi' <;> exact same hi'
    | graceful => dsimp only at hi'; split at hi' <;> exact same hi'
    | hard => dsimp only at hi'; split at hi' <;> exact same hi'
    | stopListener => dsimp only at hi'; split at hi' <;> exact same hi'
    | serveReturns => dsimp only at hi'; split at hi' <;> exact same hi'
    | send j => exact hitem j _ hi'
    | accept j => exact hitem j _ hi'
    | drain j => exact hitem j _ hi'
    | panic j => exact hitem j _ hi'
    | finish j => exact hitem j _ hi'
    | closeConn j => exact hitem j _ hi'

/-- C125. What ends the process is a stream that is being handed over while the channel is closed, and nothing else. -/
theorem death (s : St) (op : Op) (hd : s.dead = false) (hd' : (s.step op).dead = true) :
    s.chanClosed = true ∧ ∃ it ∈ s.items, it.quic ≠ none ∧ (it.phase = .before ∨ it.phase = .sending) := by
  have no : ∀ {P : Prop}, s.dead = true → P := fun h => by rw [hd] at h; cases h
  have hclose : ∀ (j : Nat) (jt : Item) (ph : Phase), (s.closeItem j jt ph).dead = false := by
    intro j jt ph
    unfold St.closeItem St.uncount
    split
    · exact hd
    · split <;> exact hd
  have hblow : ∀ (j : Nat) (jt : Item), (s.blowUp j jt).dead = true → jt.quic ≠ none := by
    intro j jt h
    unfold St.blowUp at h
    split at h
    · rw [hclose] at h; cases h
    · rename_i hq; rw [hq]; simp
  have hitem : ∀ (j : Nat) (o : Op), (s.onItem j o).dead = true →
      s.chanClosed = true ∧ ∃ it ∈ s.items, it.quic ≠ none ∧ (it.phase = .before ∨ it.phase = .sending) := by
    intro j o h
    unfold St.onItem at h
    split at h
    · rename_i jt hj
      have hm := List.mem_of_getElem? hj
      unfold St.stepItem at h
      split at h
      · split at h
        · rename_i hp
          split at h
          · rename_i hc
            exact ⟨hc, jt, hm, hblow _ _ h, .inl hp⟩
          · exact no h
        · exact no h
      · split at h <;> exact no h
      · split at h <;> exact no h
      · split at h
        · rename_i hp
          exact ⟨hp.2, jt, hm, hblow _ _ h, .inr hp.1⟩
        · exact no h
      · split at h
        · rw [hclose] at h; cases h
        · exact no h
      · split at h
        · rw [hclose] at h; cases h
        · exact no h
      · exact no h
    · exact no h
  unfold St.step at hd'
  rw [if_neg (by simp [hd])] at hd'
  cases op with
  | tcp => dsimp only at hd'; split at hd' <;> exact no hd'
  | quic => dsimp only at hd'; split at hd' <;> exact no hd'
  | stream q => dsimp only at hd'; split at hd' <;> exact no hd'
  | quicEnds q => dsimp only at hd'; split at hd' <;> exact no hd'
  | graceful => dsimp only at hd'; split at hd' <;> exact no hd'
  | hard => dsimp only at hd'; split at hd' <;> exact no hd'
  | stopListener => dsimp only at hd'; split at hd' <;> exact no hd'
  | serveReturns => dsimp only at hd'; split at hd' <;> exact no hd'
  | send j => exact hitem j _ hd'
  | accept j => exact hitem j _ hd'
  | drain j => exact hitem j _ hd'
  | panic j => exact hitem j _ hd'
  | finish j => exact hitem j _ hd'
  | closeConn j => exact hitem j _ hd'

/-- Non-vacuity: a connection that is served, one that is swallowed, and a step that ends the process. -/
example : ((({} : St).run [.tcp, .send 0]).step (.accept 0)).items[0]?.map Item.phase = some .served ∧
    ((({} : St).run [.tcp, .send 0, .graceful, .stopListener]).step (.drain 0)).items[0]?.map Item.phase =
      some .swallowed ∧
    (({} : St).run [.quic, .graceful, .stream 0, .quicEnds 0]).dead = false ∧
    ((({} : St).run [.quic, .graceful, .stream 0, .quicEnds 0]).step (.send 0)).dead = true := by
  decide

end Verif.Handoff
