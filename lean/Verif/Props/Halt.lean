import Verif.Model.Halt
/-!
# C163: when the proxy has stopped, nothing is relayed any more and every handler ends
-/
namespace Verif.Halt

namespace Spec

/-- How many steps a handler still has at most. -/
def left : Phase → Nat
  | .accepted => 7
  | .added => 6
  | .hooked => 5
  | .routed => 4
  | .shaken => 3
  | .waited => 2
  | .relayed => 1
  | .returned => 0

/-- The connection is over: closed, not listed, and without a connection to a server. -/
def Over (c : Conn) : Prop := c.closed = true ∧ c.listed = false ∧ c.server = false

/-- It may be, or become, connected to a server. -/
def Near (c : Conn) : Prop := c.phase = .waited ∨ c.phase = .relayed

/-- How often the handler of a connection runs. -/
def turns (i : Nat) (ops : List Op) : Nat := ops.countP fun o =>
  match o with
  | .conn j _ => j == i
  | _ => false

end Spec

/-- What is always true of a connection. -/
structure Sane (c : Conn) : Prop where
  /-- the list has every open connection that was added -/
  listed : c.phase ≠ .accepted → c.closed = false → c.listed = true
  /-- the hook stays until the connection is closed -/
  hook : c.phase ≠ .accepted → c.phase ≠ .added → c.listed = true → c.hook = true
  server : c.server = true → c.phase = .relayed
  early : c.phase = .accepted → c.listed = false ∧ c.hook = false ∧ c.closed = false
  added : c.phase = .added → c.listed = true
  over : c.phase = .returned → c.closed = true ∧ c.listed = false
  unhooked : c.phase = .added → c.hook = false

theorem sane_new : Sane {} := by
  constructor <;> simp

theorem sane_close {c : Conn} (h : Sane c) (ha : c.phase ≠ .accepted) : Sane c.close := by
  obtain ⟨h1, h2, h3, h4, h5, h6, h7⟩ := h
  constructor
  · simp [Conn.close]
  · intro _ hb hl'
    simp only [Conn.close] at hb hl' ⊢
    cases hl : c.listed
    · simp [hl] at hl'
    · have := h2 ha hb hl
      simp [this] at hl'
  · exact h3
  · intro e; exact absurd e ha
  · intro e
    have := h7 e
    have := h5 e
    simp_all [Conn.close]
  · intro e
    have := (h6 e).2
    simp_all [Conn.close]
  · intro; rfl

theorem finish_over {c : Conn} (h : Sane c) (h1 : c.phase ≠ .accepted) (h2 : c.phase ≠ .added) :
    Spec.Over c.finish ∧ c.finish.phase = .returned := by
  refine ⟨⟨rfl, ?_, rfl⟩, rfl⟩
  simp only [Conn.finish, Conn.close]
  cases hl : c.listed
  · rfl
  · simp [h.hook h1 h2 hl]

theorem sane_finish {c : Conn} (h : Sane c) (h1 : c.phase ≠ .accepted) (h2 : c.phase ≠ .added) : Sane c.finish := by
  obtain ⟨⟨o1, o2, o3⟩, o4⟩ := finish_over h h1 h2
  constructor
  · intro _ e; rw [o1] at e; cases e
  · intro _ _ e; rw [o2] at e; cases e
  · intro e; rw [o3] at e; cases e
  · intro e; rw [o4] at e; cases e
  · intro e; rw [o4] at e; cases e
  · intro _; exact ⟨o1, o2⟩
  · intro e; rw [o4] at e; cases e

theorem sane_step (cancelled ok : Bool) {c : Conn} (h : Sane c) : Sane (c.step cancelled ok) := by
  have hf := @sane_finish c h
  obtain ⟨h1, h2, h3, h4, h5, h6, h7⟩ := h
  unfold Conn.step
  split <;> rename_i hp
  · have := h4 hp
    constructor <;> simp_all
  · have := h5 hp
    constructor <;> simp_all
  · split
    · constructor <;> simp_all
    · exact hf (by simp [hp]) (by simp [hp])
  · split
    · constructor <;> simp_all
    · exact hf (by simp [hp]) (by simp [hp])
  · split
    · constructor <;> simp_all
    · exact hf (by simp [hp]) (by simp [hp])
  · split
    · constructor <;> simp_all
    · exact hf (by simp [hp]) (by simp [hp])
  · split
    · exact ⟨h1, h2, h3, h4, h5, h6, h7⟩
    · exact hf (by simp [hp]) (by simp [hp])
  · exact ⟨h1, h2, h3, h4, h5, h6, h7⟩

/-- What is always true while the proxy runs and stops. -/
structure Inv (s : St) : Prop where
  sane : ∀ (i : Nat) (c : Conn), s.conns[i]? = some c → Sane c
  cancelled : s.pc ≠ .idle → s.cancelled = true
  deaf : s.pc ≠ .idle → s.pc ≠ .cancelled → s.listening = false
  closing : ∀ rest, s.pc = .closing rest → ∀ (i : Nat) (c : Conn), s.conns[i]? = some c → Spec.Near c → c.closed = false → i ∈ rest
  still : ∀ rest, s.pc = .closing rest → ∀ i ∈ rest, ∀ c : Conn, s.conns[i]? = some c → c.phase ≠ .accepted
  done : s.pc = .done → ∀ (i : Nat) (c : Conn), s.conns[i]? = some c → Spec.Near c → c.closed = true

theorem step_moves (cancelled ok : Bool) (c : Conn) : (c.step cancelled ok).phase ≠ .accepted := by
  unfold Conn.step Conn.finish
  split <;> (try split) <;> simp_all

/-- Once the context is cancelled, nothing new comes near a server. -/
theorem step_near {ok : Bool} {c : Conn} (h : Spec.Near (c.step true ok)) :
    Spec.Near c ∧ (c.step true ok).closed = c.closed := by
  unfold Spec.Near Conn.step Conn.finish at *
  split at h <;> (try split at h) <;> simp_all

theorem inv_init : Inv {} := by
  constructor <;> simp

theorem slice_mem {cs : List Conn} {i : Nat} : i ∈ slice cs ↔ ∃ c, cs[i]? = some c ∧ c.listed = true := by
  unfold slice
  rw [List.mem_filter, List.mem_range]
  constructor
  · rintro ⟨hi, h⟩
    rw [List.getElem?_eq_getElem hi] at h ⊢
    exact ⟨_, rfl, by simpa using h⟩
  · rintro ⟨c, hc, hl⟩
    refine ⟨(List.getElem?_eq_some_iff.1 hc).1, ?_⟩
    rw [hc]
    simpa using hl

theorem modify_get {cs : List Conn} {f : Conn → Conn} {i j : Nat} {c : Conn} (h : (cs.modify i f)[j]? = some c) :
    ∃ d, cs[j]? = some d ∧ c = if i = j then f d else d := by
  rw [List.getElem?_modify] at h
  cases hd : cs[j]? with
  | none => simp [hd] at h
  | some d =>
    refine ⟨d, rfl, ?_⟩
    simp [hd] at h
    exact h.symm

theorem inv_conn {s : St} (h : Inv s) (i : Nat) (ok : Bool) : Inv (s.step (.conn i ok)) := by
  have hc : ∀ (pn : s.pc ≠ .idle) (j : Nat) (c d : Conn), (c = if i = j then Conn.step s.cancelled ok d else d) →
      Spec.Near c → Spec.Near d ∧ c.closed = d.closed := by
    intro pn j c d e hn
    rw [h.cancelled pn] at e
    subst e
    split at hn
    · rename_i hij
      rw [if_pos hij]
      exact step_near hn
    · rename_i hij
      rw [if_neg hij]
      exact ⟨hn, rfl⟩
  constructor
  · intro j c hj
    obtain ⟨d, hd, rfl⟩ := modify_get hj
    split
    · exact sane_step _ _ (h.sane _ _ hd)
    · exact h.sane _ _ hd
  · exact h.cancelled
  · exact h.deaf
  · intro rest hr j c hj hn ho
    obtain ⟨d, hd, e⟩ := modify_get hj
    have hr' : s.pc = .closing rest := hr
    obtain ⟨n1, n2⟩ := hc (by simp [hr']) j c d e hn
    exact h.closing rest hr j d hd n1 (n2 ▸ ho)
  · intro rest hr j hjr c hj
    obtain ⟨d, hd, e⟩ := modify_get hj
    subst e
    split
    · exact step_moves _ _ _
    · exact h.still rest hr j hjr d hd
  · intro hr j c hj hn
    obtain ⟨d, hd, e⟩ := modify_get hj
    have hr' : s.pc = .done := hr
    obtain ⟨n1, n2⟩ := hc (by simp [hr']) j c d e hn
    rw [n2]
    exact h.done hr j d hd n1

theorem inv_accept {s : St} (h : Inv s) : Inv (s.step .accept) := by
  unfold St.step
  dsimp only
  split
  · rename_i hl
    have hp : s.pc = .idle ∨ s.pc = .cancelled := by
      by_cases h1 : s.pc = .idle
      · exact .inl h1
      · by_cases h2 : s.pc = .cancelled
        · exact .inr h2
        · have := h.deaf h1 h2
          rw [hl] at this
          cases this
    constructor
    · intro j c hj
      rw [List.getElem?_append] at hj
      split at hj
      · exact h.sane _ _ hj
      · rw [List.getElem?_singleton] at hj
        split at hj
        · cases hj; exact sane_new
        · cases hj
    · exact h.cancelled
    · exact h.deaf
    · intro rest hr; rcases hp with hp | hp <;> simp [hp] at hr
    · intro rest hr; rcases hp with hp | hp <;> simp [hp] at hr
    · intro hr; rcases hp with hp | hp <;> simp [hp] at hr
  · exact h

theorem inv_stop {s : St} (h : Inv s) : Inv s.stop := by
  unfold St.stop
  split
  · rename_i hp
    exact ⟨h.sane, fun _ => rfl, by simp, by simp, by simp, by simp⟩
  · rename_i hp
    exact ⟨h.sane, fun _ => h.cancelled (by simp [hp]), by simp, by simp, by simp, by simp⟩
  · rename_i hp
    refine ⟨h.sane, fun _ => h.cancelled (by simp [hp]), fun _ _ => h.deaf (by simp [hp]) (by simp [hp]), ?_, ?_, by simp⟩
    · intro rest hr j c hj hn ho
      simp at hr
      subst hr
      refine slice_mem.2 ⟨c, hj, (h.sane j c hj).listed ?_ ho⟩
      rcases hn with hn | hn <;> simp [hn]
    · intro rest hr j hjr c hj e
      simp at hr
      subst hr
      obtain ⟨d, hd, hl⟩ := slice_mem.1 hjr
      have hj' : s.conns[j]? = some c := hj
      rw [hd] at hj'
      cases hj'
      have := ((h.sane j _ hd).early e).1
      rw [hl] at this
      cases this
  · rename_i hp
    refine ⟨h.sane, fun _ => h.cancelled (by simp [hp]), fun _ _ => h.deaf (by simp [hp]) (by simp [hp]), by simp, by simp, ?_⟩
    intro _ j c hj hn
    cases ho : c.closed
    · exact absurd (h.closing [] hp j c hj hn ho) (by simp)
    · rfl
  · rename_i i rest hp
    refine ⟨?_, fun _ => h.cancelled (by simp [hp]), fun _ _ => h.deaf (by simp [hp]) (by simp [hp]), ?_, ?_, by simp⟩
    · intro j c hj
      obtain ⟨d, hd, rfl⟩ := modify_get hj
      split
      · rename_i hij
        subst hij
        exact sane_close (h.sane _ _ hd) (h.still _ hp i (by simp) d hd)
      · exact h.sane _ _ hd
    · intro rest' hr j c hj hn ho
      simp at hr
      subst hr
      obtain ⟨d, hd, e⟩ := modify_get hj
      subst e
      split at hn
      · rename_i hij
        rw [if_pos hij] at ho
        cases ho
      · rename_i hij
        rw [if_neg hij] at ho
        rcases List.mem_cons.1 (h.closing _ hp j d hd hn ho) with rfl | hm
        · exact absurd rfl hij
        · exact hm
    · intro rest' hr j hjr c hj
      simp at hr
      subst hr
      obtain ⟨d, hd, e⟩ := modify_get hj
      have := h.still _ hp j (List.mem_cons_of_mem _ hjr) d hd
      subst e
      split
      · exact this
      · exact this
  · exact h

theorem inv_step {s : St} (h : Inv s) (o : Op) : Inv (s.step o) := by
  cases o with
  | accept => exact inv_accept h
  | conn i ok => exact inv_conn h i ok
  | stop => exact inv_stop h

theorem inv_run {s : St} (h : Inv s) (ops : List Op) : Inv (s.run ops) := by
  induction ops generalizing s with
  | nil => exact h
  | cons o os ih => exact ih (inv_step h o)

theorem run_append (s : St) (a b : List Op) : s.run (a ++ b) = (s.run a).run b := by
  unfold St.run
  exact List.foldl_append

theorem pc_done {s : St} (h : s.pc = .done) (o : Op) : (s.step o).pc = .done := by
  unfold St.step
  split
  · split <;> exact h
  · exact h
  · unfold St.stop
    rw [h]
    exact h

theorem run_done {s : St} (h : s.pc = .done) (ops : List Op) : (s.run ops).pc = .done := by
  induction ops generalizing s with
  | nil => exact h
  | cons o os ih => exact ih (pc_done h o)

/-- C163. From the moment when `Stop` has returned, no open connection is connected to a server, whenever the connections
came in and however far they had got. -/
theorem nothing_relayed (ops ops' : List Op) (h : (St.run {} ops).pc = .done) (i : Nat) (c : Conn)
    (hc : (St.run {} (ops ++ ops')).conns[i]? = some c) : c.closed = true ∨ c.server = false ∧ ¬ Spec.Near c := by
  rw [run_append] at hc
  have hi := inv_run (inv_run inv_init ops) ops'
  have hd := run_done h ops'
  by_cases hn : Spec.Near c
  · exact .inl (hi.done hd i c hc hn)
  · refine .inr ⟨?_, hn⟩
    cases hs : c.server
    · rfl
    · exact absurd (.inr ((hi.sane i c hc).server hs)) hn

/-- C163. Then no connections are accepted any more. -/
theorem none_accepted (ops ops' : List Op) (h : (St.run {} ops).pc = .done) :
    (St.run {} (ops ++ ops')).conns.length = (St.run {} ops).conns.length := by
  rw [run_append]
  have hi := inv_run inv_init ops
  generalize St.run {} ops = s at *
  induction ops' generalizing s with
  | nil => rfl
  | cons o os ih =>
    show ((s.step o).run os).conns.length = _
    rw [ih (s.step o) (pc_done h o) (inv_step hi o)]
    cases o with
    | accept => simp [St.step, hi.deaf (by simp [h]) (by simp [h])]
    | conn i ok => simp [St.step]
    | stop => simp [St.step, St.stop, h]

theorem left_step {ok : Bool} {c : Conn} (hr : Spec.Near c → c.closed = true) :
    Spec.left (c.step true ok).phase ≤ Spec.left c.phase - 1 := by
  unfold Conn.step Conn.finish
  have := fun h => hr (.inr h)
  split <;> (try split) <;> simp_all [Spec.left]

theorem left_run (n : Nat) (ops' : List Op) : ∀ (s : St), Inv s → s.pc = .done → ∀ (i : Nat) (c : Conn), s.conns[i]? = some c →
    Spec.left c.phase ≤ n + Spec.turns i ops' →
    ∃ c', (s.run ops').conns[i]? = some c' ∧ Spec.left c'.phase ≤ n := by
  induction ops' with
  | nil =>
    intro s _ _ i c hc hl
    exact ⟨c, hc, by simpa [Spec.turns] using hl⟩
  | cons o os ih =>
    intro s hi hd i c hc hl
    have next := ih (s.step o) (inv_step hi o) (pc_done hd o) i
    have hcan := hi.cancelled (by simp [hd])
    cases o with
    | accept =>
      refine next c ?_ (by simpa [Spec.turns] using hl)
      simp [St.step, hi.deaf (by simp [hd]) (by simp [hd]), hc]
    | stop =>
      refine next c ?_ (by simpa [Spec.turns] using hl)
      simp [St.step, St.stop, hd, hc]
    | conn j ok =>
      by_cases hij : j = i
      · subst hij
        refine next (c.step true ok) ?_ ?_
        · simp [St.step, hc, hcan]
        · have h1 := left_step (ok := ok) (fun hn => hi.done hd j c hc hn)
          have h2 : Spec.turns j (.conn j ok :: os) = Spec.turns j os + 1 := by simp [Spec.turns]
          omega
      · refine next c ?_ ?_
        · simp [St.step, hc, hij]
        · have h2 : Spec.turns i (.conn j ok :: os) = Spec.turns i os := by simp [Spec.turns, hij]
          omega

/-- C163. Every handler comes to its end then, within seven of its own steps, whatever the client and the server do; and its
connection is closed, out of the list, and without a connection to a server. -/
theorem all_end (ops ops' : List Op) (h : (St.run {} ops).pc = .done) (i : Nat) (c : Conn)
    (hc : (St.run {} ops).conns[i]? = some c) (ht : 7 ≤ Spec.turns i ops') :
    ∃ c', (St.run {} (ops ++ ops')).conns[i]? = some c' ∧ c'.phase = .returned ∧ Spec.Over c' := by
  have hi := inv_run inv_init ops
  have h7 : Spec.left c.phase ≤ 0 + Spec.turns i ops' := by
    have : Spec.left c.phase ≤ 7 := by cases c.phase <;> simp [Spec.left]
    omega
  obtain ⟨c', h1, h2⟩ := left_run 0 ops' _ hi h i c hc h7
  rw [run_append]
  refine ⟨c', h1, ?_⟩
  have hp : c'.phase = .returned := by
    cases hp : c'.phase <;> simp [hp, Spec.left] at h2 ⊢
  have hs := (inv_run hi ops').sane i c' h1
  refine ⟨hp, (hs.over hp).1, (hs.over hp).2, ?_⟩
  cases hv : c'.server
  · rfl
  · rw [hs.server hv] at hp
    cases hp

/-- C163. `Stop` itself comes to its end: it closes one connection after the other, and takes no more than three steps
besides. -/
theorem stop_ends (s : St) : ∃ n, (s.run (List.replicate n .stop)).pc = .done := by
  have hcl : ∀ (rest : List Nat) (s : St), s.pc = .closing rest → ∃ n, (s.run (List.replicate n .stop)).pc = .done := by
    intro rest
    induction rest with
    | nil =>
      intro s h
      exact ⟨1, by simp [St.run, St.step, St.stop, h]⟩
    | cons i rest ih =>
      intro s h
      obtain ⟨n, hn⟩ := ih (s.step .stop) (by simp [St.step, St.stop, h])
      exact ⟨n + 1, hn⟩
  have hdeaf : ∀ s : St, s.pc = .deaf → ∃ n, (s.run (List.replicate n .stop)).pc = .done := by
    intro s h
    obtain ⟨n, hn⟩ := hcl (slice s.conns) (s.step .stop) (by simp [St.step, St.stop, h])
    exact ⟨n + 1, hn⟩
  have hcan : ∀ s : St, s.pc = .cancelled → ∃ n, (s.run (List.replicate n .stop)).pc = .done := by
    intro s h
    obtain ⟨n, hn⟩ := hdeaf (s.step .stop) (by simp [St.step, St.stop, h])
    exact ⟨n + 1, hn⟩
  cases hp : s.pc with
  | idle =>
    obtain ⟨n, hn⟩ := hcan (s.step .stop) (by simp [St.step, St.stop, hp])
    exact ⟨n + 1, hn⟩
  | cancelled => exact hcan s hp
  | deaf => exact hdeaf s hp
  | closing rest => exact hcl rest s hp
  | done => exact ⟨0, hp⟩

/-- C163. Before that, a connection that passes all checks is relayed, and stays so as long as its client and its server
want it. -/
theorem served (n : Nat) : ((List.replicate (6 + n) true).foldl (fun c ok => Conn.step false ok c) {}) =
    { phase := .relayed, listed := true, hook := true, closed := false, server := true } := by
  rw [← List.replicate_append_replicate, List.foldl_append]
  have h6 : (List.replicate 6 true).foldl (fun c ok => Conn.step false ok c) {} =
      { phase := .relayed, listed := true, hook := true, closed := false, server := true } := by decide
  rw [h6]
  induction n with
  | zero => rfl
  | succ n ih =>
    rw [List.replicate_succ, List.foldl_cons]
    exact ih

/-- C163. Exactly the connections that come in before the listener is closed get a handler; no other error ends the loop. -/
theorem accept_loop (l : List Accepted) :
    acceptLoop l = (l.takeWhile (· ≠ .closed)).filterMap fun a => match a with | .conn c => some c | _ => none := by
  induction l with
  | nil => rfl
  | cons a l ih =>
    cases a with
    | conn c => simp [acceptLoop, ih]
    | closed => simp [acceptLoop]
    | error => simp [acceptLoop, ih]

/-! ## Examples: one connection is relayed, one has been accepted but not yet added when the list is taken -/

def exOps : List Op :=
  [.accept, .conn 0 true, .conn 0 true, .conn 0 true, .conn 0 true, .conn 0 true, .conn 0 true, .accept, .stop, .stop, .stop,
    .conn 1 true, .stop, .stop]

example : (St.run {} exOps).pc = .done := by decide

example : (St.run {} exOps).conns = [⟨.relayed, false, false, true, true⟩, ⟨.added, true, false, false, false⟩] := by decide

-- even if its handshake succeeds, the second one gets nowhere
example : (St.run {} (exOps ++ [.conn 1 true, .conn 1 true, .conn 1 true, .conn 1 true])).conns[1]? =
    some ⟨.returned, false, false, true, false⟩ := by decide

example : 7 ≤ Spec.turns 1 (List.replicate 7 (.conn 1 true)) := by decide

end Verif.Halt
