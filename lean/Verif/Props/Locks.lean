import Verif.Model.Locks

/-
Whatever clients and servers do not do, the proxy goes on: no lock is held by somebody who waits for
them, and nobody waits for a lock for ever.

The general part is about any code: if locks are taken in the order of their ranks and nothing is
waited for while one is held, then in every state that any number of threads can reach, in any order
of their steps, each thread that is not done either waits for a peer and has no lock, or some thread
can go on by itself. The particular part is that the code of the proxy is like that, but for six
functions; and for each of the six, a run that stops.
-/
namespace Verif.Locks

/-! ## Specification -/

namespace Spec

/-- The order in which locks are taken. -/
def rank : Cls → Nat
  | .proxy => 0
  | .pki | .sshca | .passkey => 1
  | .file => 2
  | .token | .backend | .events | .tracker => 3
  | .quicStream => 4
  | .conn | .quicConn => 5
  | .counter | .listener | .oidcClient | .oidcServer | .saml | .nonces => 6

/-- A thread waits for somebody outside. -/
def AtPeer (t : Thread) : Prop := t.todo.head? = some .peer ∨ t.todo.head? = some .quicClose

/-- Everything that has not ended and does not wait for a peer can, some thread at a time, go on; and
who waits for a peer has no lock. -/
def Live (s : State) : Prop :=
  ∀ i, (s i).todo ≠ [] → (AtPeer (s i) ∧ (s i).held = []) ∨ ∃ j s', Free s j s'

/-- Nothing can go on unless somebody outside does something, and this thread, which needs nobody
outside, waits. -/
def Stalled (s : State) (i : Nat) : Prop :=
  ((s i).todo ≠ [] ∧ ¬ AtPeer (s i)) ∧ ∀ j s', ¬ Free s j s'

/-- Nothing can ever go on. -/
def Dead (s : State) : Prop := ∀ j s', ¬ Step s j s'

/-- The functions of the proxy, without those that wait under a lock: a reload without a discovery
document, a stop without QUIC, and the page of the console without connections whose PROXY header is
awaited are among them. -/
inductive Sound : Code → Prop
  | peer : Sound .peer
  | recordEvent : Sound recordEvent
  | count (k) : Sound (count k)
  | setCounters (k) : Sound (setCounters k)
  | setCountersAgain (k) : Sound (setCountersAgain k)
  | incInFlight (be) : Sound (incInFlight be)
  | closeBackend (be) : Sound (closeBackend be)
  | dial (be) : Sound (dial be)
  | track (t) : Sound (track t)
  | annotate (c) : Sound (annotate c)
  | annotateQuic (c) : Sound (annotateQuic c)
  | transfer (k up) : Sound (transfer k up)
  | closeConn (c be k) : Sound (closeConn c be k)
  | closeQuic (c be k) : Sound (closeQuic c be k)
  | closeOut (c) : Sound (closeOut c)
  | markDone (s c) : Sound (markDone s c)
  | bridgeAddr (s) : Sound (bridgeAddr s)
  | closeListener (n) : Sound (closeListener n)
  | readConfig : Sound readConfig
  | lookup (be) : Sound (lookup be)
  | revokeUnused : Sound revokeUnused
  | pkiRead (m) : Sound (pkiRead m)
  | pkiUpdate (m f) : Sound (pkiUpdate m f)
  | ocspResponse (m f) : Sound (ocspResponse m f)
  | sshInit (ca f) : Sound (sshInit ca f)
  | handshake (be m) : Sound (handshake be m)
  | reconfigure (discover pkis sshcas old) (h : true ∉ discover) : Sound (reconfigure discover pkis sshcas old)
  | reAuthorize (conns) : Sound (reAuthorize conns)
  | stop (bes conns) : Sound (stop false bes conns)
  | shutdown (bes conns rounds) : Sound (shutdown false bes conns rounds)
  | metricsHandler (counters ins outs) (h : ∀ c ∈ ins ++ outs, c.awaited = false) :
    Sound (metricsHandler counters ins outs)
  | rotateKeys (f) : Sound (rotateKeys f)
  | useKey : Sound useKey
  | serveJWKS : Sound serveJWKS
  | oidcLogin (p) : Sound (oidcLogin p)
  | oidcCallback (p) : Sound (oidcCallback p)
  | oidcServe (s) : Sound (oidcServe s)
  | samlLogin (p) : Sound (samlLogin p)
  | samlCallback (p) : Sound (samlCallback p)
  | passkeyLogin (m) : Sound (passkeyLogin m)
  | passkeyRead (m) : Sound (passkeyRead m)
  | passkeyUpdate (m f) : Sound (passkeyUpdate m f)
  | passkeyPage (m f) : Sound (passkeyPage m f)
  | serveCRL (m f) : Sound (serveCRL m f)
  | pkiRequest (m f) : Sound (pkiRequest m f)
  | sshPublicKey (ca) : Sound (sshPublicKey ca)

end Spec

open Spec

/-! ## Ordered code -/

/-- Locks are taken in the order of their ranks, and nobody is waited for while one is held. -/
def Ordered (held : List Lock) : Code → Prop
  | .skip => True
  | .peer => held = []
  | .quicClose => held = []
  | .crit l _ body => (∀ h ∈ held, rank h.cls < rank l.cls) ∧ Ordered (l :: held) body
  | .seq a b => Ordered held a ∧ Ordered held b

/-- The same of what a thread has still to do. -/
def Good : List Lock → List Act → Prop
  | held, [] => held = []
  | held, .lock l :: r => (∀ h ∈ held, rank h.cls < rank l.cls) ∧ Good (l :: held) r
  | held, .rlock l :: r => (∀ h ∈ held, rank h.cls < rank l.cls) ∧ Good (l :: held) r
  | held, .unlock l :: r => Good (held.filter (· ≠ l)) r
  | held, .peer :: r => held = [] ∧ Good held r
  | held, .quicClose :: r => held = [] ∧ Good held r

theorem good_compile (c : Code) : ∀ (held : List Lock) (rest : List Act), Ordered held c → Good held rest →
    Good held (compile c ++ rest) := by
  induction c with
  | skip => intro held rest _ h; simpa [compile] using h
  | peer => intro held rest ho h; exact ⟨ho, h⟩
  | quicClose => intro held rest ho h; exact ⟨ho, h⟩
  | crit l e body ih =>
    intro held rest ho h
    have hf : (l :: held).filter (· ≠ l) = held := by
      rw [List.filter_cons_of_neg (by simp), List.filter_eq_self]
      intro x hx
      have := ho.1 x hx
      simp only [decide_eq_true_eq]
      rintro rfl
      exact Nat.lt_irrefl _ this
    have h2 : Good (l :: held) (compile body ++ (.unlock l :: rest)) := by
      refine ih _ _ ho.2 ?_
      show Good ((l :: held).filter (· ≠ l)) rest
      rw [hf]; exact h
    have e1 : compile (.crit l e body) ++ rest = acquire l e :: (compile body ++ (.unlock l :: rest)) := by
      simp [compile]
    rw [e1]
    cases e
    · exact ⟨ho.1, h2⟩
    · exact ⟨ho.1, h2⟩
  | seq a b iha ihb =>
    intro held rest ho h
    rw [compile, List.append_assoc]
    exact iha _ _ ho.1 (ihb _ _ ho.2 h)

theorem ordered_seqs {held : List Lock} {cs : List Code} (h : ∀ c ∈ cs, Ordered held c) : Ordered held (seqs cs) := by
  induction cs with
  | nil => trivial
  | cons c cs ih => exact ⟨h c (by simp), ih fun x hx => h x (by simp [hx])⟩

theorem ordered_map {α : Type} {held : List Lock} {f : α → Code} {l : List α} (h : ∀ x ∈ l, Ordered held (f x)) :
    Ordered held (seqs (l.map f)) := by
  refine ordered_seqs ?_
  intro c hc
  obtain ⟨x, hx, rfl⟩ := List.mem_map.mp hc
  exact h x hx

/-! ## What every reachable state is like -/

def locks (t : Thread) : List Lock := t.held.map Prod.fst

/-- Each thread has ordered work to do; a lock that somebody has alone nobody else has. -/
structure Inv (s : State) : Prop where
  good : ∀ i, Good (locks (s i)) (s i).todo
  alone : ∀ i j l, (l, true) ∈ (s i).held → holds (s j) l → i = j

theorem set_self (s : State) (i : Nat) (t : Thread) : set s i t i = t := by simp [set]

theorem set_other (s : State) {i j : Nat} (t : Thread) (h : j ≠ i) : set s i t j = s j := by simp [set, h]

theorem locks_release (t : Thread) (l : Lock) : (release t.held l).map Prod.fst = (locks t).filter (· ≠ l) := by
  unfold release locks
  rw [List.filter_map]
  rfl

theorem holds_release {t t' : Thread} {l l' : Lock} (h : t'.held = release t.held l) (hh : holds t' l') : holds t l' := by
  obtain ⟨e, he⟩ := hh
  rw [h] at he
  exact ⟨e, (List.mem_filter.mp he).1⟩

/-- Threads that have at most the locks they had. -/
theorem alone_of {s s' : State} (h : Inv s) (hsub : ∀ i l e, (l, e) ∈ (s' i).held → (l, e) ∈ (s i).held) :
    ∀ i j l, (l, true) ∈ (s' i).held → holds (s' j) l → i = j := by
  intro i j l h1 h2
  obtain ⟨e, he⟩ := h2
  exact h.alone i j l (hsub i l true h1) ⟨e, hsub j l e he⟩

theorem inv_step {s s' : State} {i : Nat} (h : Inv s) (hs : Step s i s') : Inv s' := by
  cases hs with
  | peer rest ht =>
    have hg := h.good i
    rw [ht] at hg
    refine ⟨fun j => ?_, alone_of h fun j l e hm => ?_⟩
    · by_cases hj : j = i
      · subst hj; rw [set_self]; exact hg.2
      · rw [set_other _ _ hj]; exact h.good j
    · by_cases hj : j = i
      · subst hj; rw [set_self] at hm; exact hm
      · rw [set_other _ _ hj] at hm; exact hm
  | free hf =>
    cases hf with
    | announce l rest ht hw =>
      refine ⟨fun j => ?_, alone_of h fun j l e hm => ?_⟩
      · by_cases hj : j = i
        · subst hj; rw [set_self]; exact h.good j
        · rw [set_other _ _ hj]; exact h.good j
      · by_cases hj : j = i
        · subst hj; rw [set_self] at hm; exact hm
        · rw [set_other _ _ hj] at hm; exact hm
    | lock l rest ht hw hl =>
      have hg := h.good i
      rw [ht] at hg
      refine ⟨fun j => ?_, ?_⟩
      · by_cases hj : j = i
        · subst hj; rw [set_self]; exact hg.2
        · rw [set_other _ _ hj]; exact h.good j
      · intro a b l' h1 h2
        by_cases ha : a = i <;> by_cases hb : b = i
        · rw [ha, hb]
        · subst ha
          rw [set_other _ _ hb] at h2
          rw [set_self] at h1
          rcases List.mem_cons.mp h1 with h1 | h1
          · cases h1; exact absurd h2 (hl b)
          · exact h.alone a b l' h1 h2
        · subst hb
          rw [set_other _ _ ha] at h1
          rw [set_self] at h2
          obtain ⟨e, he⟩ := h2
          rcases List.mem_cons.mp he with he | he
          · cases he; exact absurd ⟨true, h1⟩ (hl a)
          · exact h.alone a b l' h1 ⟨e, he⟩
        · rw [set_other _ _ ha] at h1
          rw [set_other _ _ hb] at h2
          exact h.alone a b l' h1 h2
    | rlock l rest ht hl hw =>
      have hg := h.good i
      rw [ht] at hg
      refine ⟨fun j => ?_, ?_⟩
      · by_cases hj : j = i
        · subst hj; rw [set_self]; exact hg.2
        · rw [set_other _ _ hj]; exact h.good j
      · intro a b l' h1 h2
        by_cases ha : a = i <;> by_cases hb : b = i
        · rw [ha, hb]
        · subst ha
          rw [set_other _ _ hb] at h2
          rw [set_self] at h1
          rcases List.mem_cons.mp h1 with h1 | h1
          · cases h1
          · exact h.alone a b l' h1 h2
        · subst hb
          rw [set_other _ _ ha] at h1
          rw [set_self] at h2
          obtain ⟨e, he⟩ := h2
          rcases List.mem_cons.mp he with he | he
          · cases he; exact absurd h1 (hl a)
          · exact h.alone a b l' h1 ⟨e, he⟩
        · rw [set_other _ _ ha] at h1
          rw [set_other _ _ hb] at h2
          exact h.alone a b l' h1 h2
    | unlock l rest ht =>
      have hg := h.good i
      rw [ht] at hg
      refine ⟨fun j => ?_, alone_of h fun j l' e hm => ?_⟩
      · by_cases hj : j = i
        · subst hj
          rw [set_self]
          show Good ((release (s j).held l).map Prod.fst) rest
          rw [locks_release]; exact hg
        · rw [set_other _ _ hj]; exact h.good j
      · by_cases hj : j = i
        · subst hj; rw [set_self] at hm; exact (List.mem_filter.mp hm).1
        · rw [set_other _ _ hj] at hm; exact hm
    | quicClose rest ht hq =>
      have hg := h.good i
      rw [ht] at hg
      refine ⟨fun j => ?_, alone_of h fun j l e hm => ?_⟩
      · by_cases hj : j = i
        · subst hj; rw [set_self]; exact hg.2
        · rw [set_other _ _ hj]; exact h.good j
      · by_cases hj : j = i
        · subst hj; rw [set_self] at hm; exact hm
        · rw [set_other _ _ hj] at hm; exact hm

theorem inv_reach {s0 s : State} {tr : List Nat} (h0 : Inv s0) (h : Reach s0 tr s) : Inv s := by
  induction h with
  | refl => exact h0
  | step _ h2 ih => exact inv_step ih h2

theorem inv_start (calls : Nat → List Code) (quic : Nat → Bool) (h : ∀ i, ∀ c ∈ calls i, Ordered [] c) :
    Inv (start calls quic) := by
  refine ⟨fun i => ?_, ?_⟩
  · have := good_compile (seqs (calls i)) [] [] (ordered_seqs (h i)) rfl
    rw [List.append_nil] at this
    exact this
  · intro i j l h1 _
    exact (nomatch h1)

/-! ## No deadlock -/

theorem rank_le (c : Cls) : rank c ≤ 6 := by cases c <;> decide

/-- Somebody who has the lock can go on, or wants one of higher rank. -/
theorem holder {s : State} (hs : Inv s) (hno : ∀ j s', ¬ Free s j s') {j : Nat} {l : Lock} (hh : holds (s j) l) :
    ∃ l', rank l.cls < rank l'.cls ∧ ((s j).todo.head? = some (.lock l') ∨ (s j).todo.head? = some (.rlock l')) := by
  have hg := hs.good j
  obtain ⟨e, he⟩ := hh
  have hmem : l ∈ locks (s j) := List.mem_map.mpr ⟨(l, e), he, rfl⟩
  have hne : locks (s j) ≠ [] := List.ne_nil_of_mem hmem
  match ht : (s j).todo with
  | [] => rw [ht] at hg; exact absurd hg hne
  | .lock l' :: r => rw [ht] at hg; exact ⟨l', hg.1 l hmem, .inl rfl⟩
  | .rlock l' :: r => rw [ht] at hg; exact ⟨l', hg.1 l hmem, .inr rfl⟩
  | .unlock l' :: r => exact absurd (Free.unlock l' r ht) (hno j _)
  | .peer :: r => rw [ht] at hg; exact absurd hg.1 hne
  | .quicClose :: r => rw [ht] at hg; exact absurd hg.1 hne

theorem head_eq {α : Type} {l : List α} {a : α} (h : l.head? = some a) : ∃ r, l = a :: r := by
  cases l with
  | nil => exact (nomatch h)
  | cons b r => simp only [List.head?_cons, Option.some.injEq] at h; exact ⟨r, by rw [h]⟩

/-- Who waits for `Lock` waits for somebody who has the lock. -/
theorem lock_held {s : State} (hno : ∀ j s', ¬ Free s j s') {i : Nat} {l : Lock}
    (ht : (s i).todo.head? = some (.lock l)) : ∃ j, holds (s j) l := by
  obtain ⟨r, hr⟩ := head_eq ht
  by_cases hw : (s i).waiting = true
  · refine Classical.byContradiction fun h => ?_
    exact hno i _ (Free.lock l r hr hw (fun j hj => h ⟨j, hj⟩))
  · exact absurd (Free.announce l r hr (by simpa using hw)) (hno i _)

theorem rlock_held {s : State} (hno : ∀ j s', ¬ Free s j s') {i : Nat} {l : Lock}
    (ht : (s i).todo.head? = some (.rlock l)) : ∃ j, holds (s j) l := by
  obtain ⟨r, hr⟩ := head_eq ht
  refine Classical.byContradiction fun h => ?_
  refine hno i _ (Free.rlock l r hr (fun j hj => h ⟨j, true, hj⟩) (fun j hj => ?_))
  exact h (lock_held hno hj.2)

theorem no_wait {s : State} (hs : Inv s) (hno : ∀ j s', ¬ Free s j s') :
    ∀ (k : Nat) (i : Nat) (l : Lock), 6 - rank l.cls = k →
      ¬ ((s i).todo.head? = some (.lock l) ∨ (s i).todo.head? = some (.rlock l)) := by
  intro k
  induction k using Nat.strongRecOn with
  | _ k ih =>
    intro i l hk hw
    obtain ⟨j, hj⟩ : ∃ j, holds (s j) l := by
      rcases hw with h | h
      · exact lock_held hno h
      · exact rlock_held hno h
    obtain ⟨l', hlt, hl'⟩ := holder hs hno hj
    have h1 := rank_le l'.cls
    exact ih (6 - rank l'.cls) (by omega) j l' rfl hl'

/-- The general part. -/
theorem live_of_inv {s : State} (hs : Inv s) : Live s := by
  intro i hi
  by_cases hf : ∃ j s', Free s j s'
  · exact .inr hf
  · have hno : ∀ j s', ¬ Free s j s' := fun j s' h => hf ⟨j, s', h⟩
    left
    have hg := hs.good i
    have hnil : ∀ {t : Thread}, locks t = [] → t.held = [] := fun h => List.map_eq_nil_iff.mp h
    match ht : (s i).todo with
    | [] => exact absurd ht hi
    | .lock l :: r => exact absurd (.inl (by rw [ht]; rfl)) (no_wait hs hno _ i l rfl)
    | .rlock l :: r => exact absurd (.inr (by rw [ht]; rfl)) (no_wait hs hno _ i l rfl)
    | .unlock l :: r => exact absurd (Free.unlock l r ht) (hno i _)
    | .peer :: r => rw [ht] at hg; exact ⟨.inl (by rw [ht]; rfl), hnil hg.1⟩
    | .quicClose :: r => rw [ht] at hg; exact ⟨.inr (by rw [ht]; rfl), hnil hg.1⟩

/-- The code of the proxy takes its locks in order and waits for nobody meanwhile. -/
theorem sound_ordered {c : Code} (h : Sound c) : Ordered [] c := by
  cases h
  case reconfigure discover pkis sshcas old hd =>
    refine ⟨by simp [share, seqs, Ordered], ?_, trivial⟩
    refine ⟨by simp, ?_, ?_, ?_, ?_, ?_, ?_, ?_, trivial⟩
    · simp [recordEvent, hold, seqs, Ordered, rank]
    · refine ordered_map fun d hm => ?_
      have : d = false := by cases d; rfl; exact absurd hm hd
      subst this; trivial
    · simp [hold, seqs, Ordered, rank]
    · exact ordered_map fun x _ => by simp [pkiUpdate, hold, seqs, Ordered, rank]
    · exact ordered_map fun x _ => by simp [pkiRead, hold, seqs, Ordered, rank]
    · exact ordered_map fun x _ => by simp [sshInit, hold, seqs, Ordered, rank]
    · exact ordered_map fun x _ => by simp [closeBackend, hold, seqs, Ordered, rank]
  case reAuthorize conns =>
    refine ⟨by simp [track, hold, seqs, Ordered], ?_, trivial⟩
    exact ordered_map fun x _ => by
      simp [annotate, lookup, share, recordEvent, closeConn, track, incInFlight, count, hold, seqs, Ordered, rank]
  case stop bes conns =>
    refine ⟨by simp [track, hold, seqs, Ordered, rank], ?_, ?_, trivial⟩
    · exact ordered_map fun x _ => by simp [closeBackend, hold, seqs, Ordered]
    · exact ordered_map fun x _ => by
        simp [annotate, closeConn, track, incInFlight, count, hold, seqs, Ordered]
  case shutdown bes conns rounds =>
    refine ⟨⟨by simp, trivial, ?_, trivial⟩, ?_, ⟨?_, ?_, ?_, trivial⟩, trivial⟩
    · exact ordered_map fun x _ => by simp [closeBackend, hold, seqs, Ordered, rank]
    · refine ordered_map fun cs _ => ⟨⟨by simp, ?_, ?_, trivial⟩, rfl, trivial⟩
      · simp [track, hold, seqs, Ordered, rank]
      · exact ordered_map fun x _ => by simp [annotate, hold, seqs, Ordered, rank]
    · simp [track, hold, seqs, Ordered, rank]
    · exact ordered_map fun x _ => by simp [closeBackend, hold, seqs, Ordered]
    · exact ordered_map fun x _ => by
        simp [annotate, closeConn, track, incInFlight, count, hold, seqs, Ordered]
  case metricsHandler counters ins outs hc =>
    have hshow : ∀ c ∈ ins ++ outs, Ordered [⟨.proxy, 0⟩] (showConn c) := by
      intro c hm
      have ha := hc c hm
      refine ⟨by simp [annotate, hold, seqs, Ordered, rank], ?_, by simp [annotateQuic, hold, seqs, Ordered, rank],
        ?_, by simp [count, hold, seqs, Ordered, rank], trivial⟩
      · rw [ha]; trivial
      · exact ordered_map fun x _ => by simp [bridgeAddr, hold, seqs, Ordered, rank]
    refine ⟨⟨by simp, ?_, by simp [hold, seqs, Ordered, rank], by simp [track, hold, seqs, Ordered, rank], ?_,
      by simp [track, hold, seqs, Ordered, rank], ?_, trivial⟩, rfl, trivial⟩
    · exact ordered_map fun x _ => by simp [count, hold, seqs, Ordered, rank]
    · exact ordered_map fun x hx => hshow x (by simp [hx])
    · exact ordered_map fun x hx => hshow x (by simp [hx])
  all_goals
    simp [recordEvent, count, setCounters, setCountersAgain, incInFlight, closeBackend, dial, track, annotate,
      annotateQuic, transfer, closeConn, closeQuic, closeOut, markDone, bridgeAddr, closeListener, readConfig, lookup,
      revokeUnused, pkiRead, pkiUpdate, ocspResponse, sshInit, handshake, rotateKeys, useKey, serveJWKS, oidcLogin,
      oidcCallback, oidcServe, samlLogin, samlCallback, passkeyLogin, passkeyRead, passkeyUpdate, passkeyPage,
      serveCRL, pkiRequest, sshPublicKey, hold, share, seqs, Ordered, rank]

/-- C137, without the six functions that wait under a lock: whatever any number of threads call, in
whatever order their steps are made, and whichever clients and servers never answer, each thread that
is not done either waits for a peer and has no lock, or some thread can go on by itself. Missing: the
six. -/
theorem no_deadlock_partial (calls : Nat → List Code) (quic : Nat → Bool) (h : ∀ i, ∀ c ∈ calls i, Sound c)
    {tr : List Nat} {s : State} (hr : Reach (start calls quic) tr s) : Live s :=
  live_of_inv (inv_reach (inv_start calls quic fun i c hc => sound_ordered (h i c hc)) hr)

/-- In particular when nothing can go on any more, everybody is done or waits for a peer, and no lock is
taken. -/
theorem rest_partial (calls : Nat → List Code) (quic : Nat → Bool) (h : ∀ i, ∀ c ∈ calls i, Sound c)
    {tr : List Nat} {s : State} (hr : Reach (start calls quic) tr s) (hno : ∀ j s', ¬ Free s j s') (i : Nat) :
    ((s i).todo = [] ∨ AtPeer (s i)) ∧ (s i).held = [] := by
  have hinv := inv_reach (inv_start calls quic fun i c hc => sound_ordered (h i c hc)) hr
  by_cases ht : (s i).todo = []
  · refine ⟨.inl ht, ?_⟩
    have hg := hinv.good i
    rw [ht] at hg
    exact List.map_eq_nil_iff.mp hg
  · rcases live_of_inv hinv i ht with h1 | ⟨j, s', h1⟩
    · exact ⟨.inr h1.1, h1.2⟩
    · exact absurd h1 (hno j s')

/-- What is left to do, with the calls of `Lock` that are still to be made counted once more. -/
def left (t : Thread) : Nat := 2 * t.todo.length - (if t.waiting then 1 else 0)

theorem left_step {s s' : State} {i : Nat} (h : Step s i s') :
    left (s' i) + 1 ≤ left (s i) ∧ ∀ j, j ≠ i → s' j = s j := by
  cases h with
  | peer rest ht =>
    refine ⟨?_, fun j hj => set_other _ _ hj⟩
    rw [set_self]; simp only [left, ht, List.length_cons]; split <;> omega
  | free hf =>
    cases hf with
    | announce l rest ht hw =>
      refine ⟨?_, fun j hj => set_other _ _ hj⟩
      rw [set_self]; simp only [left, ht, hw, List.length_cons]; simp; omega
    | lock l rest ht hw hl =>
      refine ⟨?_, fun j hj => set_other _ _ hj⟩
      rw [set_self]; simp only [left, ht, hw, List.length_cons]; simp; omega
    | rlock l rest ht hl hw =>
      refine ⟨?_, fun j hj => set_other _ _ hj⟩
      rw [set_self]; simp only [left, ht, List.length_cons]; split <;> omega
    | unlock l rest ht =>
      refine ⟨?_, fun j hj => set_other _ _ hj⟩
      rw [set_self]; simp only [left, ht, List.length_cons]; split <;> omega
    | quicClose rest ht hq =>
      refine ⟨?_, fun j hj => set_other _ _ hj⟩
      rw [set_self]; simp only [left, ht, List.length_cons]; split <;> omega

/-- A thread makes finitely many steps, however often the others are preferred: nobody is made to try
for a lock again and again. With `no_deadlock_partial`: any run ends, after at most as many steps as
this, with everybody done or waiting for a peer. -/
theorem steps_bounded (calls : Nat → List Code) (quic : Nat → Bool) {tr : List Nat} {s : State}
    (hr : Reach (start calls quic) tr s) (i : Nat) :
    tr.count i ≤ 2 * (compile (seqs (calls i))).length := by
  suffices h : tr.count i + left (s i) ≤ left (start calls quic i) by
    have : left (start calls quic i) = 2 * (compile (seqs (calls i))).length := by simp [left, start]
    omega
  induction hr with
  | refl => simp
  | @step tr s1 s2 k _ h2 ih =>
    have := left_step h2
    by_cases hk : k = i
    · subst hk; rw [List.count_cons_self]; omega
    · rw [List.count_cons_of_ne hk, this.2 i (Ne.symm hk)]; exact ih

/-- A lock that one thread has alone no other thread has. -/
theorem mutual_exclusion (calls : Nat → List Code) (quic : Nat → Bool) (h : ∀ i, ∀ c ∈ calls i, Sound c)
    {tr : List Nat} {s : State} (hr : Reach (start calls quic) tr s) {i j : Nat} {l : Lock}
    (h1 : (l, true) ∈ (s i).held) (h2 : holds (s j) l) : i = j :=
  (inv_reach (inv_start calls quic fun i c hc => sound_ordered (h i c hc)) hr).alone i j l h1 h2

/-! ## Two threads, step by step -/

def has (t : Thread) (l : Lock) : Bool := t.held.any fun x => x.1 = l

def hasAlone (t : Thread) (l : Lock) : Bool := t.held.contains (l, true)

def waits (t : Thread) (l : Lock) : Bool := t.waiting && t.todo.head? == some (.lock l)

def inQuic (t : Thread) : Bool := t.quic && !t.todo.isEmpty

/-- The next state of a thread if there is only one other, `none` if it has to wait. -/
def next (t o : Thread) : Option Thread :=
  match t.todo with
  | [] => none
  | .lock l :: r =>
    if t.waiting = false then some { t with waiting := true }
    else if has t l || has o l then none
    else some { t with todo := r, held := (l, true) :: t.held, waiting := false }
  | .rlock l :: r =>
    if hasAlone t l || hasAlone o l || waits o l then none
    else some { t with todo := r, held := (l, false) :: t.held }
  | .unlock l :: r => some { t with todo := r, held := release t.held l }
  | .peer :: _ => none
  | .quicClose :: r => if inQuic t || inQuic o then none else some { t with todo := r }

/-- As `next`, with an answer of the peer. -/
def nextAny (t o : Thread) : Option Thread :=
  match t.todo with
  | .peer :: r => some { t with todo := r }
  | _ => next t o

def idle : Thread := { todo := [] }

/-- There are only these two. -/
def Only (s : State) (i j : Nat) : Prop := ∀ k, k ≠ i → k ≠ j → (s k).todo = [] ∧ (s k).held = []

theorem has_iff (t : Thread) (l : Lock) : has t l = true ↔ holds t l := by
  unfold has holds
  rw [List.any_eq_true]
  constructor
  · rintro ⟨x, hx, he⟩
    refine ⟨x.2, ?_⟩
    have : x.1 = l := by simpa using he
    rw [← this]; exact hx
  · rintro ⟨e, he⟩
    exact ⟨(l, e), he, by simp⟩

theorem hasAlone_iff (t : Thread) (l : Lock) : hasAlone t l = true ↔ (l, true) ∈ t.held := by
  unfold hasAlone; simp

theorem waits_iff (t : Thread) (l : Lock) : waits t l = true ↔ announced t l := by
  unfold waits announced; simp

theorem inQuic_iff (t : Thread) : inQuic t = false ↔ (t.quic = true → t.todo = []) := by
  unfold inQuic
  cases t.quic <;> simp

theorem each {s : State} {i j : Nat} (ho : Only s i j) {P : Thread → Prop} (hi : P (s i)) (hj : P (s j))
    (h : ∀ t : Thread, t.todo = [] → t.held = [] → P t) (k : Nat) : P (s k) := by
  by_cases h1 : k = i
  · rw [h1]; exact hi
  · by_cases h2 : k = j
    · rw [h2]; exact hj
    · exact h _ (ho k h1 h2).1 (ho k h1 h2).2

theorem next_free {s : State} {i j : Nat} (ho : Only s i j) {t : Thread} (h : next (s i) (s j) = some t) :
    Free s i (set s i t) := by
  unfold next at h
  match ht : (s i).todo with
  | [] => rw [ht] at h; exact (nomatch h)
  | .lock l :: r =>
    rw [ht] at h; dsimp only at h
    split at h
    case isTrue hw => cases h; rw [← ht]; exact .announce l r ht hw
    case isFalse hw =>
      split at h
      case isTrue => exact (nomatch h)
      case isFalse hh =>
        cases h
        rw [Bool.or_eq_true, not_or, has_iff, has_iff] at hh
        refine .lock l r ht (by simpa using hw) (each ho (P := fun t => ¬ holds t l) hh.1 hh.2 ?_)
        rintro t _ h2 ⟨e, he⟩
        rw [h2] at he; exact (nomatch he)
  | .rlock l :: r =>
    rw [ht] at h; dsimp only at h
    split at h
    case isTrue => exact (nomatch h)
    case isFalse hh =>
      cases h
      rw [Bool.or_eq_true, not_or, Bool.or_eq_true, not_or, hasAlone_iff, hasAlone_iff, waits_iff] at hh
      refine .rlock l r ht (each ho (P := fun t => (l, true) ∉ t.held) hh.1.1 hh.1.2 ?_)
        (each ho (P := fun t => ¬ announced t l) ?_ hh.2 ?_)
      · intro t _ h2; rw [h2]; simp
      · intro ha; have := ha.2; rw [ht] at this; exact (nomatch this)
      · intro t h1 _ ha; have := ha.2; rw [h1] at this; exact (nomatch this)
  | .unlock l :: r => rw [ht] at h; cases h; exact .unlock l r ht
  | .peer :: r => rw [ht] at h; exact (nomatch h)
  | .quicClose :: r =>
    rw [ht] at h; dsimp only at h
    split at h
    case isTrue => exact (nomatch h)
    case isFalse hh =>
      cases h
      rw [Bool.or_eq_true, not_or, Bool.not_eq_true, Bool.not_eq_true, inQuic_iff, inQuic_iff] at hh
      exact .quicClose r ht (each ho (P := fun t => t.quic = true → t.todo = []) hh.1 hh.2 (fun t h1 _ _ => h1))

theorem next_none {s : State} {i j : Nat} (h : next (s i) (s j) = none) {s' : State} : ¬ Free s i s' := by
  intro hf
  unfold next at h
  cases hf with
  | announce l r ht hw => rw [ht] at h; dsimp only at h; rw [if_pos hw] at h; exact (nomatch h)
  | lock l r ht hw hl =>
    rw [ht] at h; dsimp only at h
    rw [if_neg (by simp [hw]), if_neg ?_] at h
    · exact (nomatch h)
    · rw [Bool.or_eq_true, has_iff, has_iff]
      rintro (h1 | h1)
      · exact hl i h1
      · exact hl j h1
  | rlock l r ht hl hw =>
    rw [ht] at h; dsimp only at h
    rw [if_neg ?_] at h
    · exact (nomatch h)
    · rw [Bool.or_eq_true, Bool.or_eq_true, hasAlone_iff, hasAlone_iff, waits_iff]
      rintro ((h1 | h1) | h1)
      · exact hl i h1
      · exact hl j h1
      · exact hw j h1
  | unlock l r ht => rw [ht] at h; exact (nomatch h)
  | quicClose r ht hq =>
    rw [ht] at h; dsimp only at h
    rw [if_neg ?_] at h
    · exact (nomatch h)
    · rw [Bool.or_eq_true, not_or, Bool.not_eq_true, Bool.not_eq_true, inQuic_iff, inQuic_iff]
      exact ⟨hq i, hq j⟩

theorem nextAny_step {s : State} {i j : Nat} (ho : Only s i j) {t : Thread} (h : nextAny (s i) (s j) = some t) :
    Step s i (set s i t) := by
  unfold nextAny at h
  split at h
  case h_1 r ht => cases h; exact .peer r ht
  case h_2 => exact .free (next_free ho h)

/-- Threads `0` and `1`, and nobody else. -/
def two (a b : Thread) : State := fun i => match i with
  | 0 => a
  | 1 => b
  | _ => idle

theorem only01 (a b : Thread) : Only (two a b) 0 1 := by
  intro k h0 h1
  match k with
  | 0 => exact absurd rfl h0
  | 1 => exact absurd rfl h1
  | k + 2 => exact ⟨rfl, rfl⟩

theorem only10 (a b : Thread) : Only (two a b) 1 0 := fun k h1 h0 => only01 a b k h0 h1

theorem set0 (a b t : Thread) : set (two a b) 0 t = two t b := by
  funext k
  match k with
  | 0 => rfl
  | 1 => rfl
  | k + 2 => rfl

theorem set1 (a b t : Thread) : set (two a b) 1 t = two a t := by
  funext k
  match k with
  | 0 => rfl
  | 1 => rfl
  | k + 2 => rfl

/-- A run of the two: `false` is a step of thread `0`. -/
def run : List Bool → Thread × Thread → Option (Thread × Thread)
  | [], x => some x
  | false :: tr, (a, b) => match nextAny a b with
    | none => none
    | some a' => run tr (a', b)
  | true :: tr, (a, b) => match nextAny b a with
    | none => none
    | some b' => run tr (a, b')

theorem reach_trans {s1 s2 s3 : State} {t1 t2 : List Nat} (h1 : Reach s1 t1 s2) (h2 : Reach s2 t2 s3) :
    ∃ t, Reach s1 t s3 := by
  induction h2 with
  | refl => exact ⟨_, h1⟩
  | step _ h ih => obtain ⟨t, ht⟩ := ih; exact ⟨_, ht.step h⟩

theorem run_reach (tr : List Bool) : ∀ {a b a' b' : Thread}, run tr (a, b) = some (a', b') →
    ∃ t, Reach (two a b) t (two a' b') := by
  induction tr with
  | nil => intro a b a' b' h; cases h; exact ⟨_, .refl⟩
  | cons c tr ih =>
    intro a b a' b' h
    cases c
    · rw [run] at h
      split at h
      case h_1 => exact (nomatch h)
      case h_2 x hx =>
        obtain ⟨t, ht⟩ := ih h
        have hs := nextAny_step (only01 a b) hx
        rw [set0] at hs
        exact reach_trans (.step .refl hs) ht
    · rw [run] at h
      split at h
      case h_1 => exact (nomatch h)
      case h_2 x hx =>
        obtain ⟨t, ht⟩ := ih h
        have hs := nextAny_step (only10 a b) hx
        rw [set1] at hs
        exact reach_trans (.step .refl hs) ht

def begin (a b : List Code) (quic : Bool) : Thread × Thread :=
  ({ todo := compile (seqs a) }, { todo := compile (seqs b), quic := quic })

def calls (a b : List Code) : Nat → List Code := fun i => match i with
  | 0 => a
  | 1 => b
  | _ => []

def quics (q : Bool) : Nat → Bool := fun i => match i with
  | 1 => q
  | _ => false

theorem start_eq (a b : List Code) (q : Bool) :
    start (calls a b) (quics q) = two (begin a b q).1 (begin a b q).2 := by
  funext k
  match k with
  | 0 => rfl
  | 1 => rfl
  | k + 2 => rfl

theorem stuck_of {a b : Thread} (h0 : next a b = none) (h1 : next b a = none) (j : Nat) (s' : State) :
    ¬ Free (two a b) j s' := by
  match j with
  | 0 => exact next_none (j := 1) h0
  | 1 => exact next_none (i := 1) (j := 0) h1
  | k + 2 =>
    intro hf
    have hn : (two a b (k + 2)).todo = [] := rfl
    cases hf with
    | announce l r ht hw => rw [hn] at ht; exact (nomatch ht)
    | lock l r ht hw hl => rw [hn] at ht; exact (nomatch ht)
    | rlock l r ht hl hw => rw [hn] at ht; exact (nomatch ht)
    | unlock l r ht => rw [hn] at ht; exact (nomatch ht)
    | quicClose r ht hq => rw [hn] at ht; exact (nomatch ht)

/-- Where a run of the two ends: nothing goes on, and thread `1` waits for a lock. -/
def endsStalled (tr : List Bool) (a b : List Code) : Bool :=
  match run tr (begin a b false) with
  | none => false
  | some (x, y) => (next x y).isNone && (next y x).isNone && !y.todo.isEmpty && y.todo.head? != some .peer &&
    y.todo.head? != some .quicClose

theorem stalled_of {tr : List Bool} {a b : List Code} (h : endsStalled tr a b = true) :
    ∃ t s, Reach (start (calls a b) (quics false)) t s ∧ Stalled s 1 := by
  unfold endsStalled at h
  split at h
  case h_1 => exact (nomatch h)
  case h_2 x y hr =>
    simp only [Bool.and_eq_true, Option.isNone_iff_eq_none, Bool.not_eq_true', bne_iff_ne, ne_eq] at h
    obtain ⟨⟨⟨⟨h1, h2⟩, h3⟩, h4⟩, h5⟩ := h
    obtain ⟨t, ht⟩ := run_reach tr hr
    rw [start_eq]
    refine ⟨t, two x y, ht, ⟨?_, ?_⟩, stuck_of h1 h2⟩
    · show y.todo ≠ []
      intro hn; rw [hn] at h3; exact (nomatch h3)
    · rintro (h | h)
      · exact h4 h
      · exact h5 h

theorem dead_of {tr : List Bool} {a b : List Code} {x y : Thread} (hr : run tr (begin a b true) = some (x, y))
    (h0 : nextAny x y = none) (h1 : nextAny y x = none) (hx : x.todo ≠ []) :
    ∃ t s, Reach (start (calls a b) (quics true)) t s ∧ Dead s ∧ (s 0).todo ≠ [] := by
  obtain ⟨t, ht⟩ := run_reach tr hr
  rw [start_eq]
  have hany : ∀ {p q : Thread}, nextAny p q = none → next p q = none ∧ ∀ r, p.todo ≠ .peer :: r := by
    intro p q h
    unfold nextAny at h
    split at h
    case h_1 => exact (nomatch h)
    case h_2 hne => exact ⟨h, hne⟩
  refine ⟨t, two x y, ht, ?_, hx⟩
  intro j s' hs
  cases hs with
  | free hf => exact stuck_of (hany h0).1 (hany h1).1 j s' hf
  | peer r hp =>
    match j with
    | 0 => exact (hany h0).2 r hp
    | 1 => exact (hany h1).2 r hp
    | k + 2 => exact (nomatch hp)

/-! ## The six -/

/-- A client asks for an SSH certificate and does not send the body of its request: nobody gets a
certificate or the public key of the CA until it does (sshca.go:258-343). -/
theorem ssh_stalled_violated :
    ∃ t s, Reach (start (calls [sshCertificate 0] [sshPublicKey 0]) (quics false)) t s ∧ Stalled s 1 :=
  stalled_of (tr := [false, false, true]) (by decide)

/-- A client asks for the certificate of a CA, which takes no login, and does not read the answer: no
TLS handshake with a client certificate of the CA ends until it does (pki/http.go:77-101,
pki.go:571-579). -/
theorem cacert_stalled_violated :
    ∃ t s, Reach (start (calls [serveCACert 0] [handshake 0 0]) (quics false)) t s ∧ Stalled s 1 :=
  stalled_of (tr := [false, false] ++ List.replicate 13 true) (by decide)

/-- The same with the page of the certificates (pki/http.go:187-342). -/
theorem pki_page_stalled_violated :
    ∃ t s, Reach (start (calls [pkiPage 0] [handshake 0 0]) (quics false)) t s ∧ Stalled s 1 :=
  stalled_of (tr := [false, false, false] ++ List.replicate 13 true) (by decide)

/-- The configuration is read again, with an identity provider that has a discovery document and does
not answer: no connection is accepted until it does (proxy.go:281-863, oidc/client.go:109-132). -/
theorem reload_stalled_violated (be m : Nat) :
    ∃ t s, Reach (start (calls [reconfigure [true] [] [] []] [handshake be m]) (quics false)) t s ∧ Stalled s 1 := by
  refine stalled_of (tr := [false, false, false, false, false, false, false]) ?_
  rfl

/-- An admin looks at the console while a connection's PROXY header has not arrived, and a server name
is seen for the first time: everything that reads the configuration waits until the header comes, or
the 30 seconds of netw.go:187 are over; a connection above the limit of proxy.go:1154-1157 has no such
time limit (metrics.go:298-371). -/
theorem console_stalled_violated :
    ∃ t s, Reach (start (calls [metricsHandler [] [⟨0, [], 0, true⟩] []] [setCounters 0]) (quics false)) t s ∧
      Stalled s 1 :=
  stalled_of (tr := [true, true] ++ List.replicate 10 false ++ [true]) (by decide)

/-- The proxy is stopped, or shut down, while a QUIC connection is in its handshake: `Stop` and
`Shutdown` have the lock and wait for the connection to end, and the connection waits for the lock.
Nothing that anybody outside does changes that (proxy.go:966-1005, quic.go:74-85). -/
theorem stop_dead_violated (be m : Nat) :
    ∃ t s, Reach (start (calls [shutdown true [] [] []] [handshake be m]) (quics true)) t s ∧ Dead s ∧
      (s 0).todo ≠ [] :=
  dead_of (tr := [false, false]) rfl rfl rfl (fun h => (nomatch h))

/-- A run that is fine: an admin looks at the console while the proxy is reconfigured and a handshake is
made; `no_deadlock_partial` is about it. -/
example : ∀ i, ∀ c ∈ calls [reconfigure [false, false] [(0, 1), (1, 2)] [(0, 3)] [0, 1]]
    [handshake 0 1, metricsHandler [0, 1] [⟨0, [3, 4], 0, false⟩] [], closeConn 0 0 1] i, Sound c := by
  intro i c hc
  match i with
  | 0 => simp only [calls, List.mem_singleton] at hc; subst hc; exact .reconfigure _ _ _ _ (by decide)
  | 1 =>
    simp only [calls, List.mem_cons, List.not_mem_nil, or_false] at hc
    rcases hc with rfl | rfl | rfl
    · exact .handshake _ _
    · exact .metricsHandler _ _ _ (by decide)
    · exact .closeConn _ _ _
  | k + 2 => exact (nomatch hc)

/-- And such runs do get to their end, through the locks. -/
example : (run ([false, false] ++ List.replicate 19 true ++ List.replicate 4 false) (begin [rotateKeys 0] [handshake 0 0] false)).isSome = true := by
  decide

end Verif.Locks
