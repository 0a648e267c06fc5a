import Verif.Model.Patience

/-!
# C141: a client that does not say what it wants is disconnected in time

Whatever a client sends and whenever it sends it, within a minute of `Accept` its ClientHello is there
or the connection is closed, and within three minutes it is served or closed; only trusted proxies can
hold a connection forever, when there are too many. Clients that send their ClientHello within half a
minute are not disconnected for being slow.
-/

namespace Verif.Patience

open Verif.Hello (Bytes Result parseBody ClientHello)

/-- It happens, not later than `t`. -/
def EndsBy {α : Type} (r : Option (α × Nat)) (t : Nat) : Prop := ∃ x, r = some x ∧ x.2 ≤ t

/-- The bytes `p`, ..., `p + n - 1` of the client all become readable before `d`. -/
def AllBefore (c : Client) (p n d : Nat) : Prop := ∀ i, i < n → ∃ t b, c (p + i) = .byte t b ∧ t < d

theorem readFull_ends (c : Client) (d n : Nat) : ∀ p now, now ≤ d →
    ∃ b t, readFull c (some d) n p now = some (b, t) ∧ now ≤ t ∧ t ≤ d ∧ b.length ≤ n := by
  induction n with
  | zero => intro p now h; exact ⟨[], now, rfl, Nat.le_refl _, h, Nat.le_refl _⟩
  | succ n ih =>
    intro p now h
    unfold readFull
    split
    · rename_i t b _
      split
      · rename_i hi
        simp only [inTime, decide_eq_true_eq] at hi
        obtain ⟨b', t', e, h1, h2, h3⟩ := ih (p + 1) (max now t) (by omega)
        refine ⟨b :: b', t', by rw [e]; rfl, by omega, h2, by simp; omega⟩
      · exact ⟨[], d, by simp [Option.getD, Nat.max_eq_right h], h, Nat.le_refl _, by simp⟩
    · rename_i t _
      split
      · rename_i hi
        simp only [inTime, decide_eq_true_eq] at hi
        exact ⟨[], max now t, rfl, by omega, by omega, by simp⟩
      · exact ⟨[], d, by simp [Option.getD, Nat.max_eq_right h], h, Nat.le_refl _, by simp⟩
    · exact ⟨[], d, by simp [Nat.max_eq_right h], h, Nat.le_refl _, by simp⟩

/-- Bytes that are all there by a time before the deadline are read by then, all of them. -/
theorem readFull_all (c : Client) (d e n : Nat) (hed : e ≤ d) : ∀ p now, now < e → AllBefore c p n e →
    ∃ b t, readFull c (some d) n p now = some (b, t) ∧ b.length = n ∧ now ≤ t ∧ t < e ∧
      ∀ i, i < n → ∃ t', c (p + i) = .byte t' (b.getD i 0) := by
  induction n with
  | zero => intro p now h _; exact ⟨[], now, rfl, rfl, Nat.le_refl _, h, fun i hi => absurd hi (Nat.not_lt_zero _)⟩
  | succ n ih =>
    intro p now h hb
    obtain ⟨t, b, hc, ht⟩ := hb 0 (by omega)
    rw [Nat.add_zero] at hc
    obtain ⟨b', t', e, h1, h1', h2, h3⟩ := ih (p + 1) (max now t) (by omega) (by
      intro i hi
      have := hb (i + 1) (by omega)
      rwa [show p + (i + 1) = p + 1 + i by omega] at this)
    refine ⟨b :: b', t', ?_, by simp [h1], by omega, h2, ?_⟩
    · unfold readFull
      rw [hc]
      dsimp only
      rw [if_pos (by simp only [inTime, decide_eq_true_eq]; omega), e]
      rfl
    · intro i hi
      cases i with
      | zero => exact ⟨t, by simpa using hc⟩
      | succ i =>
        have := h3 i (by omega)
        rwa [show p + 1 + i = p + (i + 1) by omega] at this

/-- Two byte strings that are both what the client sent at the same place are the same. -/
theorem same_bytes (c : Client) (p : Nat) (a b : Bytes) (hl : a.length = b.length)
    (ha : ∀ i, i < a.length → ∃ t, c (p + i) = .byte t (a.getD i 0))
    (hb : ∀ i, i < b.length → ∃ t, c (p + i) = .byte t (b.getD i 0)) : a = b := by
  apply List.ext_getElem hl
  intro i hi hi'
  obtain ⟨t1, e1⟩ := ha i hi
  obtain ⟨t2, e2⟩ := hb i hi'
  rw [e1] at e2
  injection e2 with _ e2
  rw [List.getD_eq_getElem?_getD, List.getElem?_eq_getElem hi, List.getD_eq_getElem?_getD,
    List.getElem?_eq_getElem hi'] at e2
  simpa using e2

/-- If one of the bytes is not there before the deadline, not all of them are read. -/
theorem readFull_late (c : Client) (d n : Nat) : ∀ p now, now ≤ d →
    (∃ i, i < n ∧ ∀ t b, c (p + i) = .byte t b → d ≤ t) →
    ∃ b t, readFull c (some d) n p now = some (b, t) ∧ t ≤ d ∧ b.length < n := by
  induction n with
  | zero => intro p now _ h; obtain ⟨i, hi, _⟩ := h; omega
  | succ n ih =>
    intro p now h hb
    unfold readFull
    split
    · rename_i t b hc
      split
      · rename_i hi
        simp only [inTime, decide_eq_true_eq] at hi
        obtain ⟨b', t', e, h1, h2⟩ := ih (p + 1) (max now t) (by omega) (by
          obtain ⟨i, hi', hl⟩ := hb
          cases i with
          | zero => have := hl t b (by simpa using hc); omega
          | succ i =>
            refine ⟨i, by omega, fun t b hcc => hl t b ?_⟩
            rwa [show p + (i + 1) = p + 1 + i by omega])
        exact ⟨b :: b', t', by rw [e]; rfl, h1, by simp; omega⟩
      · exact ⟨[], d, by simp [Option.getD, Nat.max_eq_right h], Nat.le_refl _, by simp⟩
    · rename_i t _
      split
      · rename_i hi
        simp only [inTime, decide_eq_true_eq] at hi
        exact ⟨[], max now t, rfl, by omega, by simp⟩
      · exact ⟨[], d, by simp [Option.getD, Nat.max_eq_right h], Nat.le_refl _, by simp⟩
    · exact ⟨[], d, by simp [Nat.max_eq_right h], Nat.le_refl _, by simp⟩

theorem peekBody_ends (c : Client) (len p now : Nat) : EndsBy (peekBody c len p now) (now + 30) := by
  obtain ⟨b, t, e, _, h, _⟩ := readFull_ends c (now + peekTimeout) len p now (by omega)
  unfold peekBody
  rw [e]
  exact ⟨_, rfl, h⟩

theorem afterHeader_ends (c : Client) (h : Bytes) (p now : Nat) :
    EndsBy (afterHeader c h p now) (now + 30) := by
  unfold afterHeader
  split
  · split
    · exact ⟨_, rfl, by simp⟩
    · split
      · exact ⟨_, rfl, by simp⟩
      · exact peekBody_ends ..
  · exact ⟨_, rfl, by simp⟩

/-- Within a minute there is a ClientHello or an error. -/
theorem hello_bounded (c : Client) (hdr now : Nat) : EndsBy (awaitHello c hdr now) (now + 60) := by
  obtain ⟨b, t, e, h1, h2, _⟩ := readFull_ends c (now + peekTimeout) hdr 0 now (by omega)
  simp only [peekTimeout] at h2
  unfold awaitHello
  rw [e]
  dsimp only
  split
  · exact ⟨_, rfl, by simp; omega⟩
  · unfold peekHeader
    obtain ⟨b', t', e', h1', h2', _⟩ := readFull_ends c (now + peekTimeout) 5 hdr t (by simp [peekTimeout]; omega)
    simp only [peekTimeout] at h2'
    rw [e']
    dsimp only
    obtain ⟨x, hx, hx'⟩ := afterHeader_ends c b' (hdr + 5) t'
    exact ⟨x, hx, by omega⟩

/-- A client that has not sent the first five bytes (after its PROXY header, if it is trusted to send
one) in half a minute is refused, however steadily it sends. -/
theorem slow_refused (c : Client) (hdr now : Nat)
    (h : ∃ i, i < hdr + 5 ∧ ∀ t b, c i = .byte t b → now + 30 ≤ t) :
    ∃ t, awaitHello c hdr now = some (.err, t) ∧ t ≤ now + 30 := by
  obtain ⟨i, hi, hl⟩ := h
  unfold awaitHello
  by_cases hh : i < hdr
  · obtain ⟨b, t, e, h1, h2⟩ := readFull_late c (now + peekTimeout) hdr 0 now (by omega)
      ⟨i, hh, by simpa [peekTimeout] using hl⟩
    rw [e]
    dsimp only
    rw [if_pos h2]
    exact ⟨t, rfl, h1⟩
  · obtain ⟨b, t, e, h1, h2, h3⟩ := readFull_ends c (now + peekTimeout) hdr 0 now (by omega)
    rw [e]
    dsimp only
    split
    · exact ⟨t, rfl, h2⟩
    · unfold peekHeader
      obtain ⟨b', t', e', h1', h2'⟩ := readFull_late c (now + peekTimeout) 5 hdr t h2
        ⟨i - hdr, by omega, by rw [show hdr + (i - hdr) = i by omega]; simpa [peekTimeout] using hl⟩
      rw [e']
      dsimp only
      refine ⟨t', ?_, h1'⟩
      unfold afterHeader
      split
      · simp at h2'
      · rfl

/-- The number of bytes of the record that starts with these bytes. -/
def recordLength (st : Bytes) : Nat := (st.getD 3 0).toNat * 256 + (st.getD 4 0).toNat

theorem five (st : Bytes) (h : 5 ≤ st.length) :
    ∃ b0 b1 b2 b3 b4 rest, st = b0 :: b1 :: b2 :: b3 :: b4 :: rest := by
  rcases st with _ | ⟨b0, _ | ⟨b1, _ | ⟨b2, _ | ⟨b3, _ | ⟨b4, rest⟩⟩⟩⟩⟩ <;> simp at h
  exact ⟨b0, b1, b2, b3, b4, rest, rfl⟩

/-- A client that sends its whole first record in half a minute is never refused for being slow: the
result is what `peekClientHello` makes of the bytes. -/
theorem prompt_heard (c : Client) (hdr now : Nat) (st : Bytes)
    (hc : ∀ i, i < hdr → ∃ t b, c i = .byte t b ∧ t < now + 30)
    (hs : ∀ i, i < st.length → ∃ t, c (hdr + i) = .byte t (st.getD i 0) ∧ t < now + 30)
    (hl : 5 + recordLength st = st.length) :
    ∃ t, awaitHello c hdr now = some ((Hello.peekClientHello st).res, t) ∧ t < now + 30 := by
  obtain ⟨b, t, e, h1, h1', h2, _⟩ := readFull_all c (now + peekTimeout) (now + 30) hdr (Nat.le_refl _) 0 now
    (by omega) (by intro i hi; rw [Nat.zero_add]; exact hc i hi)
  unfold awaitHello
  rw [e]
  dsimp only
  rw [if_neg (by omega)]
  obtain ⟨b0, b1, b2, b3, b4, rest, rfl⟩ := five st (by omega)
  have hlen : b3.toNat * 256 + b4.toNat = rest.length := by
    simp [recordLength] at hl
    omega
  obtain ⟨bh, th, eh, g1, g1', g2, g3⟩ := readFull_all c (now + peekTimeout) (now + 30) 5 (Nat.le_refl _) hdr t h2 (by
    intro i hi
    obtain ⟨t, ht, ht'⟩ := hs i (by simp; omega)
    exact ⟨t, _, ht, ht'⟩)
  have hbh : bh = [b0, b1, b2, b3, b4] := by
    apply same_bytes c hdr _ _ (by simp [g1])
    · intro i hi
      exact g3 i (by omega)
    · intro i hi
      simp at hi
      obtain ⟨t, ht, _⟩ := hs i (by simp; omega)
      refine ⟨t, ht.trans ?_⟩
      match i, hi with
      | 0, _ => rfl
      | 1, _ => rfl
      | 2, _ => rfl
      | 3, _ => rfl
      | 4, _ => rfl
  unfold peekHeader
  rw [eh]
  subst hbh
  unfold afterHeader Hello.peekClientHello
  dsimp only
  by_cases h0 : b0 ≠ 0x16
  · rw [if_pos h0, if_pos h0]
    exact ⟨th, rfl, g2⟩
  rw [if_neg h0, if_neg h0]
  by_cases h3 : b3.toNat * 256 + b4.toNat > 16384
  · rw [if_pos h3, if_pos h3]
    exact ⟨th, rfl, g2⟩
  rw [if_neg h3, if_neg h3, if_neg (by omega), hlen]
  unfold peekBody
  have hr : ∀ i, i < rest.length → ∃ t, c (hdr + 5 + i) = .byte t (rest.getD i 0) ∧ t < now + 30 := by
    intro i hi
    obtain ⟨t, ht, ht'⟩ := hs (i + 5) (by simp; omega)
    refine ⟨t, ?_, ht'⟩
    rw [show hdr + 5 + i = hdr + (i + 5) by omega, ht]
    rfl
  obtain ⟨bb, tb, eb, k1, _, k2, k3⟩ := readFull_all c (th + peekTimeout) (now + 30) rest.length
    (by simp only [peekTimeout]; omega) (hdr + 5) th
    g2 (by
      intro i hi
      obtain ⟨t, ht, ht'⟩ := hr i hi
      exact ⟨t, _, ht, ht'⟩)
  have : bb = rest := same_bytes c (hdr + 5) _ _ k1 (fun i hi => k3 i (by omega)) (fun i hi => by
    obtain ⟨t, ht, _⟩ := hr i hi
    exact ⟨t, ht⟩)
  rw [eb, this]
  dsimp only
  rw [if_neg (by omega), List.take_length]
  exact ⟨tb, rfl, k2⟩

theorem handshake_bounded (k : Conn) (now : Nat) : (handshake k now).2 ≤ now + 120 := by
  unfold handshake
  split
  · split
    · rename_i h
      exact Nat.le_of_lt h
    · exact Nat.le_refl _
  · exact Nat.le_refl _

theorem afterHello_bounded (k : Conn) (now : Nat) (n : Next) : (afterHello k now n).2 ≤ now + 120 := by
  have := handshake_bounded k now
  cases n <;> simp [afterHello] <;> exact this

/-- **C141**, of connections that are not above the limit and of clients that are not trusted proxies:
within three minutes the connection is closed or served. -/
theorem held_partial (k : Conn) (h : k.full = false ∨ k.hdr = none) : EndsBy (handle k) (k.start + 180) := by
  unfold handle
  split
  · rename_i hf
    unfold tooMany
    rcases h with h | h
    · rw [h] at hf
      exact absurd hf (by simp)
    · rw [h]
      exact ⟨_, rfl, by simp⟩
  · unfold inspect
    obtain ⟨⟨r, t⟩, e, ht⟩ := hello_bounded k.client (k.hdr.getD 0) k.start
    simp only at ht
    rw [e]
    cases r with
    | ok hl =>
      refine ⟨_, rfl, ?_⟩
      have := afterHello_bounded k t (k.next hl)
      omega
    | err => exact ⟨_, rfl, by simp; omega⟩
    | panic => exact ⟨_, rfl, by simp; omega⟩

/-- Without a deadline a read returns unless the client goes silent before the last byte. -/
theorem readFull_never (c : Client) (n : Nat) : ∀ p now, readFull c none n p now = none ↔
    ∃ i, i < n ∧ c (p + i) = .never ∧ ∀ j, j < i → ∃ t b, c (p + j) = .byte t b := by
  induction n with
  | zero => intro p now; simp [readFull]
  | succ n ih =>
    intro p now
    unfold readFull
    constructor
    · intro h
      split at h
      · rename_i t b hc
        rw [if_pos (by simp [inTime])] at h
        rw [Option.map_eq_none_iff] at h
        obtain ⟨i, hi, h1, h2⟩ := (ih _ _).mp h
        refine ⟨i + 1, by omega, by rwa [show p + (i + 1) = p + 1 + i by omega], ?_⟩
        intro j hj
        cases j with
        | zero => exact ⟨t, b, by simpa using hc⟩
        | succ j =>
          rw [show p + (j + 1) = p + 1 + j by omega]
          exact h2 j (by omega)
      · simp [inTime] at h
      · rename_i hc
        exact ⟨0, by omega, by simpa using hc, fun j hj => absurd hj (Nat.not_lt_zero _)⟩
    · rintro ⟨i, hi, h1, h2⟩
      cases i with
      | zero =>
        rw [Nat.add_zero] at h1
        rw [h1]
        rfl
      | succ i =>
        obtain ⟨t, b, hc⟩ := h2 0 (by omega)
        rw [Nat.add_zero] at hc
        rw [hc]
        dsimp only
        rw [if_pos (by simp [inTime]), Option.map_eq_none_iff]
        refine (ih _ _).mpr ⟨i, by omega, by rwa [show p + 1 + i = p + (i + 1) by omega], ?_⟩
        intro j hj
        rw [show p + 1 + j = p + (j + 1) by omega]
        exact h2 (j + 1) (by omega)

/-- The only connections that are held forever are those above the limit of a trusted proxy that goes
silent before the end of its PROXY header. -/
theorem held_forever_iff (k : Conn) : handle k = none ↔
    k.full = true ∧ ∃ h i, k.hdr = some h ∧ i < h ∧ k.client i = .never ∧
      ∀ j, j < i → ∃ t b, k.client j = .byte t b := by
  constructor
  · intro h
    by_cases hp : k.full = false ∨ k.hdr = none
    · obtain ⟨x, hx, _⟩ := held_partial k hp
      rw [hx] at h
      exact absurd h (by simp)
    · have hf : k.full = true := by
        cases hk : k.full
        · exact absurd (Or.inl hk) hp
        · rfl
      cases hh : k.hdr with
      | none => exact absurd (Or.inr hh) hp
      | some n =>
        unfold handle at h
        rw [if_pos hf] at h
        unfold tooMany at h
        rw [hh] at h
        dsimp only at h
        rw [Option.map_eq_none_iff] at h
        obtain ⟨i, hi, h1, h2⟩ := (readFull_never ..).mp h
        simp only [Nat.zero_add] at h1 h2
        exact ⟨hf, n, i, rfl, hi, h1, h2⟩
  · rintro ⟨hf, n, i, hh, hi, h1, h2⟩
    unfold handle
    rw [if_pos hf]
    unfold tooMany
    rw [hh]
    dsimp only
    rw [Option.map_eq_none_iff]
    exact (readFull_never ..).mpr ⟨i, hi, by rwa [Nat.zero_add], by simpa using h2⟩

/-- **C141 violated**: a trusted proxy that opens a connection above the limit and says nothing holds it
forever, at any time. -/
theorem held_violated (now : Nat) : ∃ k : Conn, k.start = now ∧ k.client = (fun _ => .never) ∧
    ∀ t, ¬ EndsBy (handle k) t := by
  refine ⟨⟨fun _ => .never, some 28, true, now, fun _ => .refuse, fun _ => none⟩, rfl, rfl, ?_⟩
  rintro t ⟨x, hx, _⟩
  exact absurd hx (by simp [handle, tooMany, readFull])

/-- A client whose handshake does not complete in two minutes is not served by a mode that ends TLS. -/
theorem handshake_required (k : Conn) (t : Nat) (h : handle k = some (.served, t)) :
    k.full = false ∧ ∃ hl t0, awaitHello k.client (k.hdr.getD 0) k.start = some (.ok hl, t0) ∧
      (k.next hl = .passthrough ∧ t = t0 ∨
       k.next hl = .tls true ∧ ∃ t1, k.handshake t0 = some t1 ∧ t1 < t0 + 120 ∧ t = max t0 t1) := by
  unfold handle at h
  split at h
  · unfold tooMany at h
    split at h
    · simp at h
    · simp at h
  · rename_i hf
    refine ⟨by simpa using hf, ?_⟩
    unfold inspect at h
    split at h
    · simp at h
    · rename_i hl t0 e
      refine ⟨hl, t0, e, ?_⟩
      simp only [Option.some.injEq] at h
      cases hn : k.next hl with
      | refuse => rw [hn] at h; simp [afterHello] at h
      | passthrough => rw [hn] at h; simp [afterHello] at h; exact .inl ⟨rfl, h.symm⟩
      | acme => rw [hn] at h; simp [afterHello] at h
      | tls ok =>
        rw [hn] at h
        simp only [afterHello, Prod.mk.injEq] at h
        obtain ⟨h1, h2⟩ := h
        split at h1
        · rename_i hok
          simp only [Bool.and_eq_true] at hok
          refine .inr ⟨by rw [hok.2], ?_⟩
          have hh := hok.1
          unfold handshake at hh h2
          split at hh
          · rename_i t1 e1
            rw [e1] at h2
            dsimp only at h2
            split at hh
            · rename_i hlt
              rw [if_pos hlt] at h2
              simp only [handshakeTimeout] at hlt
              exact ⟨t1, e1, by omega, h2.symm⟩
            · simp at hh
          · simp at hh
        · simp at h1
    · simp at h
    · simp at h

/-! ## Requests -/

theorem waitFor_le (n : Nat) (o : Option Nat) : (waitFor n o).2 ≤ n := by
  unfold waitFor
  split
  · exact Nat.le_refl _
  · split
    · simp only; omega
    · exact Nat.le_refl _

theorem waitFor_in (n d : Nat) (h : d < n) : waitFor n (some d) = (true, d) := if_pos h

theorem waitFor_out (n d : Nat) (h : n ≤ d) : waitFor n (some d) = (false, n) := if_neg (by omega)

/-- The seconds that the first `n` requests are served. -/
def busy (rs : List Req) (n : Nat) : Nat := ((rs.take n).map (·.serve)).sum

theorem keepAlive_bounded (rs : List Req) : ∀ now, (keepAlive now rs).2 ≤
    now + busy rs (keepAlive now rs).1 + 60 * ((keepAlive now rs).1 + 1) := by
  induction rs with
  | nil => intro now; simp [keepAlive, busy, idleTimeout]
  | cons r rs ih =>
    intro now
    have h1 := waitFor_le idleTimeout r.first
    have h2 := waitFor_le readHeaderTimeout r.header
    unfold keepAlive
    simp only [idleTimeout, readHeaderTimeout] at h1 h2
    split
    · split
      · have := ih (now + (waitFor idleTimeout r.first).2 + (readHeader r).2 + r.serve)
        dsimp only
        simp only [busy, List.take_succ_cons, List.map_cons, List.sum_cons] at this ⊢
        unfold readHeader at this ⊢
        simp only [idleTimeout, readHeaderTimeout] at this ⊢
        omega
      · unfold readHeader
        simp only [idleTimeout, readHeaderTimeout]
        omega
    · simp only [idleTimeout]
      omega

/-- An HTTP/1.1 connection is closed at most a minute per request after what the proxy itself needed to
serve the requests, however slow the client sends them: waiting for requests and their headers
takes no longer. -/
theorem http_bounded (rs : List Req) (now : Nat) : (serveHTTP now rs).2 ≤
    now + busy rs (serveHTTP now rs).1 + 60 * ((serveHTTP now rs).1 + 1) := by
  cases rs with
  | nil => simp [serveHTTP, busy, readHeaderTimeout]
  | cons r rs =>
    have h1 : (firstHeader r).2 ≤ 30 := waitFor_le readHeaderTimeout _
    unfold serveHTTP
    dsimp only
    split
    · have := keepAlive_bounded rs (now + (firstHeader r).2 + r.serve)
      simp only [busy, List.take_succ_cons, List.map_cons, List.sum_cons] at this ⊢
      omega
    · dsimp only
      omega

/-- A request that comes promptly. -/
def Prompt (r : Req) : Prop := ∃ a b, r.first = some a ∧ r.header = some b ∧ a + b < 30

theorem keepAlive_prompt (rs : List Req) : ∀ now, (∀ r ∈ rs, Prompt r) → (keepAlive now rs).1 = rs.length := by
  induction rs with
  | nil => intro now _; rfl
  | cons r rs ih =>
    intro now h
    obtain ⟨a, b, ha, hb, hab⟩ := h r (by simp)
    have h1 : waitFor idleTimeout r.first = (true, a) := by
      rw [ha]; exact waitFor_in _ _ (by simp only [idleTimeout]; omega)
    have h2 : readHeader r = (true, b) := by
      unfold readHeader; rw [hb]; exact waitFor_in _ _ (by simp only [readHeaderTimeout]; omega)
    unfold keepAlive
    rw [h1, h2]
    simp only [if_true, List.length_cons]
    rw [ih _ fun r hr => h r (by simp [hr])]

/-- Clients that do not dawdle get all their requests served. -/
theorem http_prompt (rs : List Req) (now : Nat) (h : ∀ r ∈ rs, Prompt r) :
    (serveHTTP now rs).1 = rs.length := by
  cases rs with
  | nil => rfl
  | cons r rs =>
    obtain ⟨a, b, ha, hb, hab⟩ := h r (by simp)
    have h1 : firstHeader r = (true, a + b) := by
      unfold firstHeader
      rw [ha, hb]
      exact waitFor_in _ _ hab
    unfold serveHTTP
    dsimp only
    rw [h1]
    simp only [if_true, List.length_cons]
    rw [keepAlive_prompt rs _ fun r hr => h r (by simp [hr])]

/-- A request whose header is not complete in time is not served, nor is anything after it. -/
theorem http_slow (r : Req) (rs : List Req) (now : Nat)
    (h : ∀ a b, r.first = some a → r.header = some b → 30 ≤ a + b) : serveHTTP now (r :: rs) = (0, now + 30) := by
  have h1 : firstHeader r = (false, 30) := by
    unfold firstHeader
    cases ha : r.first with
    | none => rfl
    | some a =>
      cases hb : r.header with
      | none => rfl
      | some b => exact waitFor_out _ _ (h a b ha hb)
  unfold serveHTTP
  dsimp only
  rw [h1]
  rfl

/-- Nor is a request that begins only when the connection has been idle for half a minute, nor anything after it: the
connection is closed then. -/
theorem http_idle (r q : Req) (rs : List Req) (now a b : Nat) (ha : r.first = some a) (hb : r.header = some b)
    (hab : a + b < 30) (hq : ∀ d, q.first = some d → 30 ≤ d) :
    serveHTTP now (r :: q :: rs) = (1, now + a + b + r.serve + 30) := by
  have h1 : firstHeader r = (true, a + b) := by
    unfold firstHeader
    rw [ha, hb]
    exact waitFor_in _ _ hab
  have h2 : waitFor idleTimeout q.first = (false, 30) := by
    cases hd : q.first with
    | none => rfl
    | some d => exact waitFor_out _ _ (hq d hd)
  unfold serveHTTP
  dsimp only
  rw [h1]
  unfold keepAlive
  rw [h2]
  simp only [if_true, Bool.false_eq_true, if_false]
  rw [Nat.add_assoc now a b]

/-! ## Examples -/

/-- The ClientHello of a client without SNI: one record of 44 bytes. -/
def sample : Bytes := [0x16, 3, 1, 0, 44, 1, 0, 0, 40, 3, 3] ++ List.replicate 32 7 ++ [0] ++ [0, 0] ++ [0] ++ [0, 0]

/-- A client that sends one byte of it every `gap` half seconds, from second 100 on. -/
def drip (gap : Nat) : Client := fun i =>
  if i < sample.length then .byte (100 + gap * i / 2) (sample.getD i 0) else .never

-- slow, but in time
example : awaitHello (drip 1) 0 100 = some (.ok {}, 124) := by decide +kernel
-- a byte per second: the header is there, but not the rest
example : awaitHello (drip 2) 0 100 = some (.err, 134) := by decide +kernel
-- 10 seconds per byte: the header is not complete after half a minute
example : awaitHello (drip 20) 0 100 = some (.err, 130) := by decide +kernel
example : ∃ i, i < 0 + 5 ∧ ∀ t b, drip 20 i = .byte t b → 100 + 30 ≤ t := ⟨4, by omega, by
  intro t b h
  have : drip 20 4 = .byte 140 44 := by decide +kernel
  rw [this] at h
  injection h with h _
  omega⟩
-- all at once
example : awaitHello (drip 0) 0 100 = some (.ok {}, 100) := by decide +kernel
example : 5 + recordLength sample = sample.length := by decide +kernel
-- a handshake that does not finish
example : handle ⟨drip 0, none, false, 100, fun _ => .tls true, fun _ => none⟩ = some (.closed, 220) := by
  decide +kernel
example : handle ⟨drip 0, none, false, 100, fun _ => .tls true, fun t => some (t + 3)⟩ = some (.served, 103) := by
  decide +kernel
-- above the limit
example : handle ⟨drip 0, none, true, 100, fun _ => .tls true, fun t => some (t + 3)⟩ = some (.closed, 100) := by
  decide +kernel
-- two requests, and then a header that never ends
example : serveHTTP 0 [⟨some 1, some 2, 5⟩, ⟨some 20, some 25, 100⟩, ⟨some 29, none, 7⟩, ⟨some 0, some 0, 1⟩] = (2, 212) := by
  decide
-- idle for too long
example : serveHTTP 7 [⟨some 1, some 2, 5⟩, ⟨some 31, some 0, 100⟩, ⟨some 0, some 0, 7⟩] = (1, 7 + 1 + 2 + 5 + 30) :=
  http_idle ⟨some 1, some 2, 5⟩ _ _ 7 1 2 rfl rfl (by omega) fun d h => by cases h; omega
example : ∀ r ∈ [Req.mk (some 1) (some 2) 5, ⟨some 3, some 9, 100⟩], Prompt r := by
  intro r hr
  simp at hr
  rcases hr with rfl | rfl
  · exact ⟨1, 2, rfl, rfl, by omega⟩
  · exact ⟨3, 9, rfl, rfl, by omega⟩

end Verif.Patience
