import Verif.Model.Netw
/-
C03, C49: peeking is invisible and byte counters are exact.
C10, C80: close callbacks run once.
-/
namespace Verif.Netw

/-! ## Specification -/

/-- Everything handed to the reader by a list of results. -/
def Spec.delivered (outs : List Out) : Bytes :=
  (outs.map fun | .read b => b | _ => []).flatten

/-- Number of bytes writers were told were accepted. -/
def Spec.accepted (outs : List Out) : Nat :=
  (outs.map fun | .wrote n => n | _ => 0).sum

theorem step_conserve (c : Conn) (op : Op) :
    Spec.delivered [(c.step op).2] ++ (c.step op).1.peekBuf ++ (c.step op).1.unread =
      c.peekBuf ++ c.unread := by
  cases op with
  | peek want avail =>
    simp only [Conn.step, Spec.delivered]
    split <;> simp
  | read len limited avail =>
    simp only [Conn.step, Spec.delivered]
    split
    · simp
    · split
      · simp [← List.append_assoc]
      · rename_i h
        have : c.peekBuf = [] := List.eq_nil_of_length_eq_zero (by omega)
        simp [this]
  | write b limited k =>
    simp only [Conn.step, Spec.delivered]
    split <;> simp

theorem delivered_cons (o : Out) (os : List Out) :
    Spec.delivered (o :: os) = Spec.delivered [o] ++ Spec.delivered os := by
  simp [Spec.delivered]

theorem run_conserve (c : Conn) (ops : List Op) :
    Spec.delivered (c.run ops).2 ++ (c.run ops).1.peekBuf ++ (c.run ops).1.unread =
      c.peekBuf ++ c.unread := by
  induction ops generalizing c with
  | nil => simp [Conn.run, Spec.delivered]
  | cons op ops ih =>
    simp only [Conn.run]
    rw [delivered_cons]
    have h1 := ih (c.step op).1
    have h2 := step_conserve c op
    rw [List.append_assoc, List.append_assoc, ← List.append_assoc (Spec.delivered (Conn.run _ _).2), h1,
      ← List.append_assoc, h2]

/-! ## C03 -/

/-- C03. For every stream the peer sends and every sequence of peeks, reads and writes with
any sizes, availability and limiter failures: what was read, followed by what was looked at
and not yet read, followed by what is still in the network, is exactly the stream. -/
theorem peek_transparent (stream : Bytes) (ops : List Op) :
    let r := Conn.run { unread := stream } ops
    Spec.delivered r.2 ++ r.1.peekBuf ++ r.1.unread = stream := by
  have := run_conserve { unread := stream } ops
  simpa using this

/-- C03, reader's view: the bytes read are a prefix of the stream. -/
theorem reads_are_prefix (stream : Bytes) (ops : List Op) :
    Spec.delivered (Conn.run { unread := stream } ops).2 <+: stream := by
  have := peek_transparent stream ops
  simp only [List.append_assoc] at this
  exact ⟨_, this⟩

/-- C03, peeker's view: after any history, what `Peek` shows is a prefix of what will be
read next, it reports an error iff it shows fewer bytes than asked, and it shows everything
asked for whenever that much arrives in time. -/
theorem peek_shows_next (stream : Bytes) (ops : List Op) (want avail : Nat) :
    ∃ shown err,
      ((Conn.run { unread := stream } ops).1.step (.peek want avail)).2 = .peeked shown err ∧
      Spec.delivered (Conn.run { unread := stream } ops).2 ++ shown <+: stream ∧
      (err = true ↔ shown.length < want) ∧
      (want ≤ stream.length - (Spec.delivered (Conn.run { unread := stream } ops).2).length →
        want ≤ avail → shown.length = want) := by
  generalize hr : Conn.run { unread := stream } ops = r
  have hc := peek_transparent stream ops
  simp only [hr] at hc
  refine ⟨((r.1.step (.peek want avail)).1.peekBuf).take want, _, rfl, ?_, ?_, ?_⟩
  · have hs := step_conserve r.1 (.peek want avail)
    simp only [Conn.step, Spec.delivered, List.map_cons, List.map_nil, List.flatten_cons,
      List.flatten_nil, List.append_nil, List.nil_append] at hs
    rw [List.append_assoc, ← hs] at hc
    rw [← hc]
    apply List.prefix_append_right_inj _ |>.mpr
    exact (List.take_prefix _ _).trans (List.prefix_append _ _)
  · simp [Conn.step]
  · intro h1 h2
    have hlen : (Spec.delivered r.2).length + r.1.peekBuf.length + r.1.unread.length =
        stream.length := by rw [← hc]; simp; omega
    simp only [Conn.step]
    split
    · simp; omega
    · simp; omega

example : (Conn.run { unread := [1, 2, 3, 4, 5] }
    [.peek 2 9, .peek 3 1, .read 2 false 9, .peek 2 9, .read 9 false 9, .read 9 false 1]).2 =
    [.peeked [1, 2] false, .peeked [1, 2, 3] false, .read [1, 2], .peeked [3, 4] false,
      .read [3, 4], .read [5]] := by decide

example : (Conn.run { unread := [1, 2] } [.peek 5 9, .read 5 false 0]).2 =
    [.peeked [1, 2] true, .read [1, 2]] := by decide

/-! ## C49 -/

/-- C49. The reported byte counters equal the bytes handed to readers and the bytes the
socket accepted from writers, after any sequence of calls. -/
theorem counters_exact (stream : Bytes) (ops : List Op) :
    let r := Conn.run { unread := stream } ops
    r.1.bytesReceived = (Spec.delivered r.2).length ∧
    r.1.bytesSent = Spec.accepted r.2 ∧
    r.1.written.length = Spec.accepted r.2 := by
  have key : ∀ (c : Conn) (ops : List Op),
      (c.run ops).1.bytesReceived = c.bytesReceived + (Spec.delivered (c.run ops).2).length ∧
      (c.run ops).1.bytesSent = c.bytesSent + Spec.accepted (c.run ops).2 ∧
      (c.run ops).1.written.length = c.written.length + Spec.accepted (c.run ops).2 := by
    intro c ops
    induction ops generalizing c with
    | nil => simp [Conn.run, Spec.delivered, Spec.accepted]
    | cons op ops ih =>
      simp only [Conn.run]
      obtain ⟨h1, h2, h3⟩ := ih (c.step op).1
      rw [delivered_cons, h1, h2, h3]
      simp only [Spec.accepted, List.map_cons, List.sum_cons, List.length_append]
      cases op with
      | peek want avail =>
        simp only [Conn.step, Spec.delivered]
        split <;> simp
      | read len limited avail =>
        simp only [Conn.step, Spec.delivered]
        split
        · simp
        · split <;> simp <;> omega
      | write b limited k =>
        simp only [Conn.step, Spec.delivered]
        split
        · simp
        · simp; omega
  have := key { unread := stream } ops
  simpa using this

example : (Conn.run { unread := [1, 2, 3] }
    [.peek 2 9, .read 1 false 9, .write [7, 8, 9] false 2, .read 9 true 9]).1.bytesReceived = 1 := by
  decide

/-! ## C10 / C80: callbacks -/

/-- All callbacks the connection still knows about or ran. -/
def Spec.accounted (s : Closer) : List Nat := s.onClose.toList ++ s.taken ++ s.ran

/-- The callbacks registered by a list of steps. -/
def Spec.registered (ops : List CloseOp) : List Nat :=
  ops.filterMap fun | .register f => some f | _ => none

theorem perm_eraseIdx {l : List Nat} {i : Nat} (h : i < l.length) :
    l.Perm (l[i] :: l.eraseIdx i) := by
  induction l generalizing i with
  | nil => simp at h
  | cons a l ih =>
    cases i with
    | zero => simp
    | succ i =>
      have h' : i < l.length := by simpa using h
      simp only [List.getElem_cons_succ, List.eraseIdx_cons_succ]
      exact ((ih h').cons a).trans (List.Perm.swap _ _ _)

theorem close_step_count (s : Closer) (op : CloseOp) (f : Nat) :
    (Spec.accounted (s.step op)).count f ≤
      (Spec.accounted s).count f + (Spec.registered [op]).count f := by
  cases op with
  | register g =>
    simp only [Closer.step, Spec.accounted, Spec.registered, Option.toList, List.filterMap_cons,
      List.filterMap_nil, List.count_append]
    omega
  | closeTake =>
    simp only [Closer.step, Spec.accounted, Spec.registered]
    cases h : s.onClose with
    | none => simp
    | some g => simp [List.count_append, List.count_cons]; omega
  | closeRun i =>
    simp only [Closer.step, Spec.accounted, Spec.registered]
    cases h : s.taken[i]? with
    | none => simp
    | some g =>
      obtain ⟨hi, hg⟩ := List.getElem?_eq_some_iff.mp h
      have hp : (s.taken).Perm (g :: s.taken.eraseIdx i) := by
        rw [← hg]; exact perm_eraseIdx hi
      have := hp.count_eq f
      simp only [List.count_append, List.count_cons, List.count_nil] at this ⊢
      simp only [List.filterMap_cons, List.filterMap_nil, List.count_nil]
      omega

theorem close_run_count (s : Closer) (ops : List CloseOp) (f : Nat) :
    (Spec.accounted (s.run ops)).count f ≤
      (Spec.accounted s).count f + (Spec.registered ops).count f := by
  induction ops generalizing s with
  | nil => simp [Closer.run, Spec.registered]
  | cons op ops ih =>
    have h1 := ih (s.step op)
    have h2 := close_step_count s op f
    have h3 : (Spec.registered (op :: ops)).count f =
        (Spec.registered [op]).count f + (Spec.registered ops).count f := by
      unfold Spec.registered
      rw [← List.count_append, ← List.filterMap_append]
      rfl
    simp only [Closer.run, List.foldl_cons] at h1 ⊢
    omega

/-- C10 / C80. Under every interleaving of any number of `Close` calls and registrations, a
callback registered once is called at most once. -/
theorem callback_at_most_once (ops : List CloseOp) (f : Nat)
    (h : (Spec.registered ops).count f ≤ 1) :
    ((Closer.run {} ops).ran).count f ≤ 1 := by
  have := close_run_count {} ops f
  simp only [Spec.accounted, List.count_append] at this
  simp at this
  omega

theorem closer_known (s : Closer) (f : Nat) (ops : List CloseOp)
    (h1 : f ∈ s.onClose ∨ f ∈ s.taken ∨ f ∈ s.ran) (h2 : Spec.registered ops = []) :
    f ∈ (s.run ops).onClose ∨ f ∈ (s.run ops).taken ∨ f ∈ (s.run ops).ran := by
  induction ops generalizing s with
  | nil => exact h1
  | cons op ops ih =>
    simp only [Closer.run, List.foldl_cons]
    apply ih
    · cases op with
      | register g => simp [Spec.registered] at h2
      | closeTake =>
        simp only [Closer.step]
        cases h : s.onClose with
        | none => simpa [h] using h1
        | some g => simp [h] at h1 ⊢; grind
      | closeRun i =>
        simp only [Closer.step]
        cases h : s.taken[i]? with
        | none => exact h1
        | some g =>
          obtain ⟨hi, hg⟩ := List.getElem?_eq_some_iff.mp h
          have hp : (s.taken).Perm (g :: s.taken.eraseIdx i) := by
            rw [← hg]; exact perm_eraseIdx hi
          have hm := hp.mem_iff (a := f)
          simp only [List.mem_cons, List.mem_append] at hm ⊢
          grind
    · cases op <;> simp_all [Spec.registered]

theorem closer_gone (s : Closer) (ops : List CloseOp)
    (h1 : s.onClose = none) (h2 : Spec.registered ops = []) : (s.run ops).onClose = none := by
  induction ops generalizing s with
  | nil => exact h1
  | cons op ops ih =>
    simp only [Closer.run, List.foldl_cons]
    apply ih
    · cases op with
      | register g => simp [Spec.registered] at h2
      | closeTake => simp [Closer.step, h1]
      | closeRun i => simp only [Closer.step]; split <;> simpa using h1
    · cases op <;> simp_all [Spec.registered]

/-- C10 / C80. If the connection is closed at least once after the callback was registered
(and the callback is not replaced), then as soon as no closer is between taking and calling,
the callback has been called exactly once: `pre` is any history before registration, `mid`
and `post` any histories in which further closes may happen concurrently. -/
theorem callback_exactly_once (pre mid post : List CloseOp) (f : Nat)
    (hpre : f ∉ Spec.registered pre) (hmid : Spec.registered mid = [])
    (hpost : Spec.registered post = [])
    (hquiet : (Closer.run {} (pre ++ [.register f] ++ mid ++ [.closeTake] ++ post)).taken = []) :
    ((Closer.run {} (pre ++ [.register f] ++ mid ++ [.closeTake] ++ post)).ran).count f = 1 := by
  have hreg : (Spec.registered (pre ++ [.register f] ++ mid ++ [.closeTake] ++ post)).count f = 1 := by
    have e1 : Spec.registered (pre ++ [.register f] ++ mid ++ [.closeTake] ++ post) =
        Spec.registered pre ++ [f] ++ Spec.registered mid ++ Spec.registered post := by
      simp [Spec.registered, List.filterMap_append, List.filterMap_cons]
    rw [e1, hmid, hpost]
    simp [List.count_append, List.count_eq_zero.mpr hpre]
  have hle := callback_at_most_once (pre ++ [.register f] ++ mid ++ [.closeTake] ++ post) f (by omega)
  have hmem : f ∈ (Closer.run {} (pre ++ [.register f] ++ mid ++ [.closeTake] ++ post)).ran := by
    have e : Closer.run {} (pre ++ [.register f] ++ mid ++ [.closeTake] ++ post) =
        ((((Closer.run {} pre).step (.register f)).run mid).step .closeTake).run post := by
      simp [Closer.run, List.foldl_append]
    rw [e] at hquiet ⊢
    generalize hs1 : ((Closer.run {} pre).step (.register f)).run mid = s1 at *
    have k1 : f ∈ s1.onClose ∨ f ∈ s1.taken ∨ f ∈ s1.ran := by
      rw [← hs1]
      exact closer_known _ f mid (by simp [Closer.step]) hmid
    have k2 : f ∈ (s1.step .closeTake).onClose ∨ f ∈ (s1.step .closeTake).taken ∨
        f ∈ (s1.step .closeTake).ran := by
      have := closer_known s1 f [.closeTake] k1 (by simp [Spec.registered])
      simpa [Closer.run] using this
    have k3 := closer_known _ f post k2 hpost
    have k4 := closer_gone (s1.step .closeTake) post (by
      simp only [Closer.step]; split <;> rfl) hpost
    rw [k4, hquiet] at k3
    simpa using k3
  have := List.count_pos_iff.mpr hmem
  omega

/-- Two goroutines close concurrently; the callback 5 runs once. -/
example : (Closer.run {} [.register 5, .closeTake, .closeTake, .closeRun 0, .closeRun 0, .closeTake]).ran
    = [5] := by decide

/-! ## C10: in-flight accounting -/

def Flight.run (s : Flight) (ops : List FlightOp) : Flight := ops.foldl Flight.step s

/-- C10 (violated as stated). If another goroutine closes the connection after the callback
is registered but before the backend is recorded on it, the in-flight count is never given
back. For TCP only `Stop` can do that (`reAuthorize` skips connections without a server
name); for QUIC a client that disconnects right after the handshake can. -/
theorem inflight_restored_violated :
    ¬ ∀ (n : Int) (ops : List FlightOp), FlightOp.count ∈ ops → FlightOp.closeRun ∈ ops →
        (Flight.run { inFlight := n } ops).pending = false →
        (Flight.run { inFlight := n } ops).registered = false →
        (Flight.run { inFlight := n } ops).inFlight = n := by
  intro h
  have := h 0 [.register, .closeTake, .closeRun, .annotate, .count] (by decide) (by decide)
    (by decide) (by decide)
  revert this; decide

theorem flight_inv (s : Flight) (n : Int) (op : FlightOp)
    (ha : s.annotated = true)
    (hi : s.inFlight = n + (if s.counted then 1 else 0) -
      (if s.registered ∨ s.pending then 0 else 1))
    (hrp : ¬ (s.registered ∧ s.pending)) (hop : op ≠ .register) :
    (s.step op).annotated = true ∧
    (s.step op).inFlight = n + (if (s.step op).counted then 1 else 0) -
      (if (s.step op).registered ∨ (s.step op).pending then 0 else 1) ∧
    ¬ ((s.step op).registered ∧ (s.step op).pending) := by
  cases op <;> simp_all [Flight.step] <;> grind

theorem flight_restored (n : Int) (ops : List FlightOp)
    (hreg : FlightOp.register ∉ ops)
    (hc : (Flight.run { inFlight := n, registered := true, annotated := true } ops).counted = true)
    (hr : (Flight.run { inFlight := n, registered := true, annotated := true } ops).registered = false)
    (hp : (Flight.run { inFlight := n, registered := true, annotated := true } ops).pending = false) :
    (Flight.run { inFlight := n, registered := true, annotated := true } ops).inFlight = n := by
  have key : ∀ (ops : List FlightOp) (s : Flight), FlightOp.register ∉ ops → s.annotated = true →
      s.inFlight = n + (if s.counted then 1 else 0) - (if s.registered ∨ s.pending then 0 else 1) →
      ¬ (s.registered ∧ s.pending) →
      (Flight.run s ops).inFlight = n + (if (Flight.run s ops).counted then 1 else 0) -
        (if (Flight.run s ops).registered ∨ (Flight.run s ops).pending then 0 else 1) := by
    intro ops
    induction ops with
    | nil => intro s _ _ h _; exact h
    | cons op ops ih =>
      intro s hreg h1 h2 h3
      simp only [Flight.run, List.foldl_cons]
      obtain ⟨g1, g2, g3⟩ := flight_inv s n op h1 h2 h3 (by rintro rfl; simp at hreg)
      exact ih _ (by simp_all) g1 g2 g3
  have := key ops { inFlight := n, registered := true, annotated := true } hreg rfl (by simp) (by simp)
  rw [hc, hr, hp] at this
  simpa using this

/-- C10 (partial). Once the handler has registered the callback and recorded the backend on the connection before any
close, every interleaving of its increment with any number of concurrent closes leaves the in-flight count where it was,
as soon as the handler has counted it and the callback ran; and the next close does run it. -/
theorem inflight_restored_partial (n : Int) (ops : List FlightOp) (hreg : FlightOp.register ∉ ops) :
    let s := Flight.run { inFlight := n } (.register :: .annotate :: ops)
    (s.counted = true → s.registered = false → s.pending = false → s.inFlight = n) ∧
    (s.counted = true → (Flight.run s [.closeTake, .closeRun]).inFlight = n) := by
  have e : ∀ o : List FlightOp, Flight.run { inFlight := n } (.register :: .annotate :: o) =
      Flight.run { inFlight := n, registered := true, annotated := true } o := fun _ => rfl
  dsimp only
  refine ⟨fun hc hr hp => ?_, fun hc => ?_⟩
  · rw [e] at *
    exact flight_restored n ops hreg hc hr hp
  · have e2 : Flight.run (Flight.run { inFlight := n } (.register :: .annotate :: ops)) [.closeTake, .closeRun] =
        Flight.run { inFlight := n, registered := true, annotated := true } (ops ++ [.closeTake, .closeRun]) := by
      rw [e]; simp [Flight.run]
    have hlast : ∀ s : Flight, s.counted = true → (Flight.run s [.closeTake, .closeRun]).counted = true ∧
        (Flight.run s [.closeTake, .closeRun]).registered = false ∧ (Flight.run s [.closeTake, .closeRun]).pending = false := by
      intro s hs
      rcases s with ⟨r, a, c, p, f⟩
      cases r <;> cases p <;> simp_all [Flight.run, Flight.step]
    obtain ⟨h1, h2, h3⟩ := hlast _ hc
    rw [e2] at h1 h2 h3 ⊢
    exact flight_restored n _ (by simp [hreg]) h1 h2 h3

/-- The callback may even run before the handler increments. -/
example : (Flight.run { inFlight := 3 }
    [.register, .annotate, .closeTake, .closeTake, .closeRun, .count, .closeRun]) =
    { inFlight := 3, registered := false, annotated := true, counted := true, pending := false } := by
  decide

/-- C10 (partial). A connection that is closed before a backend is recorded on it never lowers
any in-flight count. -/
theorem inflight_unannotated (n : Int) (ops : List FlightOp) (h : FlightOp.annotate ∉ ops) :
    n ≤ (Flight.run { inFlight := n } ops).inFlight := by
  have key : ∀ (ops : List FlightOp) (s : Flight), FlightOp.annotate ∉ ops → s.annotated = false →
      s.inFlight ≤ (Flight.run s ops).inFlight := by
    intro ops
    induction ops with
    | nil => intro s _ _; exact Int.le_refl _
    | cons op ops ih =>
      intro s hn ha
      simp only [Flight.run, List.foldl_cons]
      have h1 : s.inFlight ≤ (s.step op).inFlight ∧ (s.step op).annotated = false := by
        cases op <;> simp_all [Flight.step] <;> grind
      exact Int.le_trans h1.1 (ih _ (by simp_all) h1.2)
  exact key ops _ h rfl

example : (Flight.run { inFlight := 3 } [.register, .closeTake, .closeRun]).inFlight = 3 := by decide

/-- C02, C03 (look-ahead). A peek takes no more from the network than what is missing: afterwards
the look-ahead buffer is no longer than before or than what was asked. -/
theorem peek_bounded (c : Conn) (want avail : Nat) :
    (c.step (.peek want avail)).1.peekBuf.length ≤ max c.peekBuf.length want := by
  simp only [Conn.step]
  split
  · simp only [List.length_append, List.length_take]; omega
  · omega

/-- What the calls of `Write` handed over: of each buffer the part the caller was told. -/
def Spec.handed : List Op → List Out → Bytes
  | .write b _ _ :: ops, .wrote n :: os => b.take n ++ Spec.handed ops os
  | _ :: ops, _ :: os => Spec.handed ops os
  | _, _ => []

/-- C02 (writing). Whatever the calls, what went out is exactly what the callers of `Write` were told, in order; a call
that is not limited hands over all that the connection accepts, and a limited one nothing. -/
theorem writes_exact (c : Conn) (ops : List Op) :
    (c.run ops).1.written = c.written ++ Spec.handed ops (c.run ops).2 ∧
    (∀ b accepted, (c.step (.write b false accepted)).2 = .wrote (min b.length accepted)) ∧
    (∀ b accepted, (c.step (.write b true accepted)).2 = .wrote 0) := by
  refine ⟨?_, fun _ _ => rfl, fun _ _ => rfl⟩
  induction ops generalizing c with
  | nil => simp [Conn.run, Spec.handed]
  | cons op ops ih =>
    have hrun : c.run (op :: ops) = (((c.step op).1.run ops).1, (c.step op).2 :: ((c.step op).1.run ops).2) := rfl
    rw [hrun]
    dsimp only
    rw [ih]
    cases op with
    | peek want avail =>
      have h2 : (c.step (.peek want avail)).1.written = c.written := by
        simp only [Conn.step]; split <;> rfl
      rw [h2]; simp [Spec.handed]
    | read len limited avail =>
      have h2 : (c.step (.read len limited avail)).1.written = c.written := by
        simp only [Conn.step]; split
        · rfl
        · split <;> rfl
      rw [h2]; simp [Spec.handed]
    | write b limited accepted =>
      cases limited
      · simp [Conn.step, Spec.handed]
      · simp [Conn.step, Spec.handed]

example : ((Conn.mk [] [] [] 0 0).run [.write [1, 2, 3] false 2, .write [7] true 9, .write [3] false 5]).1.written =
    [1, 2, 3] := by decide

example : ((Conn.mk [1, 2, 3, 4] [9] [] 0 0).step (.peek 3 10)).1.peekBuf = [9, 1, 2] := by decide

end Verif.Netw
