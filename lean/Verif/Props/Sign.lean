import Verif.Model.Sign
import Verif.Props.Jwks

/-!
# C154: A token is accepted exactly when one of the keys has signed it with its own algorithm

Statements: whatever numbers a signature consists of, also those with leading zeros, and whoever has made it, the TPM
or the library, tokens have the form of RFC 7515 and RFC 7518 and are accepted; and no other tokens are, whatever
algorithm they claim.
-/

namespace Verif.Sign

namespace Spec

/-- The number that bytes write, most significant first. -/
def value : Bytes → Nat
  | [] => 0
  | a :: l => a * 256 ^ l.length + value l

def IsBytes (l : Bytes) : Prop := ∀ b ∈ l, b < 256

/-- X.690, 8.3, for numbers that are not negative: the shortest octets whose first bit is 0. -/
def IntOctets (c : Bytes) (n : Nat) : Prop :=
  IsBytes c ∧ value c = n ∧ ∃ h t, c = h :: t ∧ h < 128 ∧ (h = 0 → t = [] ∨ ∃ x u, t = x :: u ∧ 128 ≤ x)

/-- ECDSA-Sig-Value of RFC 3279, in DER, if it is short, which those of P-256 are. -/
def Der (sig : Bytes) (r s : Nat) : Prop :=
  ∃ cr cs, IntOctets cr r ∧ IntOctets cs s ∧
    sig = 48 :: (cr.length + cs.length + 4) :: (2 :: cr.length :: cr ++ 2 :: cs.length :: cs)

/-- A number in exactly `n` octets. -/
def Octets (n : Nat) (b : Bytes) (v : Nat) : Prop := IsBytes b ∧ b.length = n ∧ value b = v

/-- RFC 7518, 3.3 and 3.4, and RFC 8037, 3.1: the signature of `msg` with the algorithm of a key. -/
inductive Signature (c : Crypto) : Pub → Str → Bytes → Bytes → Prop
  | es256 {q msg a b r s} : Octets 32 a r → Octets 32 b s → c.ecdsa q (c.hash 256 msg) r s = true →
      Signature c (.ec 256 q) "ES256".toList msg (a ++ b)
  | rs256 {n msg sig} : c.pkcs1 n 256 (c.hash 256 msg) sig = true → Signature c (.rsa n) "RS256".toList msg sig
  | eddsa {q msg sig} : c.ed25519 q msg sig = true → Signature c (.ed q) "EdDSA".toList msg sig

/-- RFC 7515, 7.1: three parts with dots, of which the last one is the signature of what is before it. -/
def Token (j : Codec γ) (c : Crypto) (keys : List Key) (t : Str) (cl : γ) : Prop :=
  ∃ a b s hb cb sig h k, t = a ++ '.' :: (b ++ '.' :: s) ∧ '.' ∉ a ∧ '.' ∉ b ∧ '.' ∉ s ∧
    OcspHttp.decode64 a = some hb ∧ OcspHttp.decode64 b = some cb ∧ OcspHttp.decode64 s = some sig ∧
    j.readHeader hb = some h ∧ j.readClaims cb = some cl ∧ k ∈ keys ∧ h.kid = some k.id ∧
    ∃ alg, h.alg = some alg ∧ Signature c k.pub alg (ascii (a ++ '.' :: b)) sig

/-- The keys that the proxy has: those for ECDSA are on P-256, and the TPM has none for EdDSA. -/
def Keys (keys : List Key) : Prop :=
  ∀ k ∈ keys, (∀ bits q, k.pub = .ec bits q → bits = 256) ∧ (k.tpm = true → ∀ q, k.pub ≠ .ed q)

/-- Whoever signs gives what can be verified, the TPM in DER. -/
structure Right (c : Crypto) (d : Device) : Prop where
  tpmEc : ∀ k q h, k.pub = .ec 256 q → ∃ sig r s, d.tpmEc k h = some sig ∧ Der sig r s ∧ r < 2 ^ 256 ∧ s < 2 ^ 256 ∧
    c.ecdsa q h r s = true
  softEc : ∀ k q h, k.pub = .ec 256 q → ∃ r s, d.softEc k h = some (r, s) ∧ r < 2 ^ 256 ∧ s < 2 ^ 256 ∧
    c.ecdsa q h r s = true
  rsa : ∀ k n a h, k.pub = .rsa n → ∃ sig, d.rsa k a h = some sig ∧ IsBytes sig ∧ c.pkcs1 n a h sig = true
  ed : ∀ k q m, k.pub = .ed q → ∃ sig, d.ed k m = some sig ∧ IsBytes sig ∧ c.ed25519 q m sig = true

/-- The algorithm that belongs to a key. -/
def algOf : Pub → Str
  | .ec .. => "ES256".toList
  | .rsa _ => "RS256".toList
  | .ed _ => "EdDSA".toList

/-- What is written in JSON is read back. -/
def Reads (j : Codec γ) (keys : List Key) : Prop :=
  (∀ k ∈ keys, IsBytes (j.writeHeader ⟨some (algOf k.pub), some k.id⟩) ∧
    j.readHeader (j.writeHeader ⟨some (algOf k.pub), some k.id⟩) = some ⟨some (algOf k.pub), some k.id⟩) ∧
  ∀ cl, IsBytes (j.writeClaims cl) ∧ j.readClaims (j.writeClaims cl) = some cl

end Spec

/-! ## Numbers -/

theorem foldl_value (l : Bytes) (a : Nat) : l.foldl (fun a x => a * 256 + x) a = a * 256 ^ l.length + Spec.value l := by
  induction l generalizing a with
  | nil => simp [Spec.value]
  | cons x l ih =>
    rw [List.foldl_cons, ih, Spec.value, List.length_cons, Nat.pow_succ, Nat.add_mul, Nat.mul_assoc, Nat.mul_comm 256]
    omega

theorem setBytes_value (l : Bytes) : setBytes l = Spec.value l := by
  unfold setBytes
  rw [foldl_value]
  omega

theorem jwks_value (l : Bytes) : Jwks.Spec.value l = Spec.value l := by
  rw [← setBytes_value]
  unfold Jwks.Spec.value setBytes
  congr
  funext a b
  omega

theorem value_zeros (n : Nat) (l : Bytes) : Spec.value (List.replicate n 0 ++ l) = Spec.value l := by
  induction n with
  | zero => rfl
  | succ n ih => rw [List.replicate_succ, List.cons_append, Spec.value, ih]; omega

theorem value_lt {l : Bytes} (h : Spec.IsBytes l) : Spec.value l < 256 ^ l.length := by
  induction l with
  | nil => simp [Spec.value]
  | cons a l ih =>
    have h1 := ih fun b hb => h b (List.mem_cons_of_mem _ hb)
    have h2 := h a List.mem_cons_self
    rw [Spec.value, List.length_cons, Nat.pow_succ, Nat.mul_comm _ 256]
    have : (a + 1) * 256 ^ l.length ≤ 256 * 256 ^ l.length := Nat.mul_le_mul_right _ h2
    rw [Nat.add_mul] at this
    omega

/-- C154. A number is written with exactly as many bytes as asked for, or the program panics because there is no room. -/
theorem fill_octets (sz n : Nat) :
    (n < 256 ^ sz → ∃ b, fillBytes sz (n : Int) = some b ∧ Spec.Octets sz b n) ∧
    (256 ^ sz ≤ n → fillBytes sz (n : Int) = none) := by
  obtain ⟨h1, h2, -, -, h5⟩ := Jwks.bigBytes_spec n
  rw [jwks_value] at h2
  unfold fillBytes
  dsimp only
  rw [Int.natAbs_natCast]
  constructor
  · intro h
    have hl := (h5 sz).2 h
    rw [if_pos hl]
    refine ⟨_, rfl, ?_, ?_, ?_⟩
    · intro b hb
      rcases List.mem_append.1 hb with hb | hb
      · rw [List.eq_of_mem_replicate hb]; decide
      · exact h1 b hb
    · rw [List.length_append, List.length_replicate]
      omega
    · rw [value_zeros, h2]
  · intro h
    rw [if_neg]
    intro hl
    have := (h5 sz).1 hl
    omega

theorem halves_octets {sz r s : Nat} (hr : r < 256 ^ sz) (hs : s < 256 ^ sz) :
    ∃ a b, halves sz r s = .ok (a ++ b) ∧ Spec.Octets sz a r ∧ Spec.Octets sz b s := by
  obtain ⟨a, ha, oa⟩ := (fill_octets sz r).1 hr
  obtain ⟨b, hb, ob⟩ := (fill_octets sz s).1 hs
  refine ⟨a, b, ?_, oa, ob⟩
  unfold halves
  rw [ha, hb]

/-! ## DER -/

theorem octets_length {c : Bytes} {n m : Nat} (h : Spec.IntOctets c n) (hn : n < 256 ^ m) (hm : 0 < m) : c.length ≤ m + 1 := by
  obtain ⟨hb, hv, x, t, rfl, hx, h0⟩ := h
  have up : ∀ {a : Nat} {l : Bytes}, 0 < a → Spec.value (a :: l) < 256 ^ m → l.length < m := by
    intro a l ha hv
    rw [Spec.value] at hv
    have : 256 ^ l.length ≤ a * 256 ^ l.length := Nat.le_mul_of_pos_left _ ha
    exact (Nat.pow_lt_pow_iff_right (by decide : 1 < 256)).1 (by omega : 256 ^ l.length < 256 ^ m)
  by_cases hx0 : x = 0
  · rcases h0 hx0 with rfl | ⟨y, u, rfl, hy⟩
    · simp
    · subst hx0
      rw [Spec.value, Nat.zero_mul, Nat.zero_add] at hv
      have := up (by omega : 0 < y) (hv ▸ hn)
      simp only [List.length_cons]
      omega
  · have := up (Nat.pos_of_ne_zero hx0) (hv ▸ hn)
    simp only [List.length_cons]
    omega

theorem parse_octets {c : Bytes} {n : Nat} (h : Spec.IntOctets c n) : parseBigInt c = some (n : Int) := by
  obtain ⟨hb, hv, x, t, rfl, hx, h0⟩ := h
  unfold parseBigInt
  have hc : checkInteger (x :: t) = true := by
    cases t with
    | nil => rfl
    | cons y u =>
      unfold checkInteger
      by_cases hx0 : x = 0
      · rcases h0 hx0 with h | ⟨y', u', h, hy⟩
        · cases h
        · cases h
          have : ¬ y < 128 := by omega
          simp [hx0, this]
      · have : x ≠ 255 := by omega
        simp [hx0, this]
  rw [if_neg (by simp [hc]), if_neg (by simp; omega), setBytes_value, hv]

theorem longLength_exact (b rest : Bytes) (acc : Nat) (hb : Spec.IsBytes b) (ha : acc < 2 ^ 31)
    (h0 : 0 < acc ∨ ∃ x t, b = x :: t ∧ 0 < x) :
    longLength b.length acc (b ++ rest) =
      if acc * 256 ^ b.length + Spec.value b < 2 ^ 31 then some (acc * 256 ^ b.length + Spec.value b, rest) else none := by
  induction b generalizing acc with
  | nil => simp [longLength, Spec.value, ha]
  | cons x b ih =>
    have hx := hb x List.mem_cons_self
    have hp : 0 < 256 ^ b.length := Nat.pow_pos (by decide)
    have he : acc * 256 ^ (x :: b).length + Spec.value (x :: b) = (acc * 256 + x) * 256 ^ b.length + Spec.value b := by
      rw [Spec.value, List.length_cons, Nat.pow_succ, Nat.add_mul, Nat.mul_assoc, Nat.mul_comm 256]
      omega
    rw [he]
    show (if acc ≥ 2 ^ 23 then none else if acc * 256 + x = 0 then none
      else longLength b.length (acc * 256 + x) (b ++ rest)) = _
    by_cases hl : acc ≥ 2 ^ 23
    · rw [if_pos hl, if_neg]
      have h1 : (acc * 256 + x) * 1 ≤ (acc * 256 + x) * 256 ^ b.length := Nat.mul_le_mul_left _ hp
      omega
    · have hpos : 0 < acc * 256 + x := by
        rcases h0 with h0 | ⟨y, t, e, hy⟩
        · omega
        · cases e; omega
      rw [if_neg hl, if_neg (by omega)]
      exact ih (acc * 256 + x) (fun y hy => hb y (List.mem_cons_of_mem _ hy)) (by omega) (.inl hpos)

/-- Long lengths in DER: all that are below 2^31 are read, and no others. -/
theorem long_read (x : Nat) (b rest : Bytes) (hb : Spec.IsBytes (x :: b)) (hx : 0 < x) (hv : 128 ≤ Spec.value (x :: b)) :
    derLength ((128 + (x :: b).length) :: ((x :: b) ++ rest)) =
      if Spec.value (x :: b) < 2 ^ 31 then some (Spec.value (x :: b), rest) else none := by
  have h := longLength_exact (x :: b) rest 0 hb (by decide) (.inr ⟨x, b, rfl, hx⟩)
  rw [Nat.zero_mul, Nat.zero_add] at h
  have h1 : ¬ 128 + (x :: b).length < 128 := by omega
  have h2 : ¬ 128 + (x :: b).length = 128 := by simp
  unfold derLength
  dsimp only
  rw [if_neg h1, if_neg h2, Nat.add_sub_cancel_left, h]
  by_cases hl : Spec.value (x :: b) < 2 ^ 31
  · rw [if_pos hl]
    dsimp only
    rw [if_neg (by omega)]
  · rw [if_neg hl]

example : derLength [130, 1, 44, 7] = some (300, [7]) := by decide

/-- Lengths with leading zeros, ones that could be shorter, ones that are cut off and indefinite ones are refused. -/
theorem long_refused (n : Nat) (b : Bytes) :
    derLength (128 :: b) = none ∧ (0 < n → derLength ((128 + n) :: 0 :: b) = none) ∧
    (b.length < n → derLength ((128 + n) :: b) = none) ∧ (∀ x, x < 128 → derLength (129 :: x :: b) = none) := by
  have cut : ∀ (n acc : Nat) (b : Bytes), b.length < n → longLength n acc b = none := by
    intro n
    induction n with
    | zero => intro _ _ h; omega
    | succ n ih =>
      intro acc b h
      cases b with
      | nil => rfl
      | cons x b =>
        show (if acc ≥ 2 ^ 23 then none else if acc * 256 + x = 0 then none else longLength n (acc * 256 + x) b) = none
        rw [ih _ b (by simp at h; omega)]
        simp
  refine ⟨rfl, fun hn => ?_, fun h => ?_, fun x hx => ?_⟩
  · unfold derLength
    dsimp only
    rw [if_neg (by omega), if_neg (by omega), Nat.add_sub_cancel_left]
    cases n with
    | zero => omega
    | succ n => rfl
  · unfold derLength
    dsimp only
    rw [if_neg (by omega), if_neg (by omega), Nat.add_sub_cancel_left, cut n 0 b h]
  · unfold derLength
    dsimp only
    rw [if_neg (by decide), if_neg (by decide)]
    show (match (if 0 ≥ 2 ^ 23 then none else if 0 * 256 + x = 0 then none else some (0 * 256 + x, b)) with
      | none => none
      | some (l, b) => if l < 128 then none else some (l, b)) = none
    rw [if_neg (by decide)]
    by_cases h0 : 0 * 256 + x = 0
    · rw [if_pos h0]
    · rw [if_neg h0]
      dsimp only
      rw [if_pos (by omega)]

/-- What is read as an element begins with the tag, and its content is there in full. -/
theorem element_strict (tag : Nat) (sig c rest : Bytes) :
    element tag sig = some (c, rest) ↔ ∃ b, sig = tag :: b ∧ derLength b = some (c.length, c ++ rest) := by
  unfold element
  cases sig with
  | nil => simp
  | cons t b =>
    dsimp only
    by_cases ht : t = tag
    · subst ht
      rw [if_neg (by simp)]
      constructor
      · intro h
        refine ⟨b, rfl, ?_⟩
        cases hd : derLength b with
        | none => rw [hd] at h; cases h
        | some p =>
          rw [hd] at h
          dsimp only at h
          split at h <;> rename_i hl
          · cases h
            rw [List.take_append_drop, List.length_take, Nat.min_eq_left hl]
          · cases h
      · rintro ⟨b', e, h⟩
        cases e
        rw [h]
        dsimp only
        rw [if_pos (by simp)]
        simp
    · rw [if_pos ht]
      constructor
      · intro h; cases h
      · rintro ⟨b', e, -⟩
        cases e
        exact absurd rfl ht

theorem value_complement {l : Bytes} (h : Spec.IsBytes l) :
    Spec.value (l.map (255 - ·)) + Spec.value l + 1 = 256 ^ l.length := by
  induction l with
  | nil => rfl
  | cons a l ih =>
    have ha : a < 256 := h a List.mem_cons_self
    have := ih fun x hx => h x (List.mem_cons_of_mem _ hx)
    rw [List.map_cons, Spec.value, Spec.value, List.length_map, List.length_cons, Nat.pow_succ]
    have e : (255 - a) * 256 ^ l.length + a * 256 ^ l.length = 255 * 256 ^ l.length := by
      rw [← Nat.add_mul, Nat.sub_add_cancel (by omega)]
    generalize (255 - a) * 256 ^ l.length = x at e ⊢
    generalize a * 256 ^ l.length = y at e ⊢
    omega

/-- X.690 section 8.3: integers have at least one byte, the first nine bits are not all the same, and the value is the two's
complement. Nothing else is read. -/
theorem integer_strict (c : Bytes) (hb : Spec.IsBytes c) :
    (c = [] ∨ (∃ y t, c = 0 :: y :: t ∧ y < 128) ∨ (∃ y t, c = 255 :: y :: t ∧ 128 ≤ y) → parseBigInt c = none) ∧
    (c ≠ [] → (∀ y t, c = 0 :: y :: t → 128 ≤ y) → (∀ y t, c = 255 :: y :: t → y < 128) → parseBigInt c =
      some (if c.head?.getD 0 < 128 then (Spec.value c : Int) else (Spec.value c : Int) - (256 ^ c.length : Nat))) := by
  have hv : ∀ c : Bytes, Spec.IsBytes c → checkInteger c = true →
      parseBigInt c = some (if c.head?.getD 0 < 128 then (Spec.value c : Int) else (Spec.value c : Int) - (256 ^ c.length : Nat)) := by
    intro c hb hc
    unfold parseBigInt
    rw [hc, setBytes_value, setBytes_value]
    have := value_complement hb
    by_cases h : c.head?.getD 0 < 128
    · rw [if_neg (by simp), if_neg (by omega), if_pos h]
    · rw [if_neg (by simp), if_pos (by omega), if_neg h]
      congr 1
      omega
  have hn : ∀ c : Bytes, checkInteger c = false → parseBigInt c = none := by
    intro c hc
    unfold parseBigInt
    rw [hc]
    rfl
  refine ⟨?_, fun h0 h1 h2 => hv c hb ?_⟩
  · rintro (rfl | ⟨y, t, rfl, h⟩ | ⟨y, t, rfl, h⟩)
    · rfl
    · exact hn _ (by simp [checkInteger, h])
    · exact hn _ (by simp [checkInteger, h])
  · cases c with
    | nil => exact absurd rfl h0
    | cons a t =>
      cases t with
      | nil => rfl
      | cons b t =>
        unfold checkInteger
        simp only [Bool.not_eq_true', Bool.or_eq_false_iff, Bool.and_eq_false_iff, decide_eq_false_iff_not]
        constructor
        · by_cases ha : a = 0
          · have := h1 b t (by rw [ha])
            exact .inr (by omega)
          · exact .inl ha
        · by_cases ha : a = 255
          · have := h2 b t (by rw [ha])
            exact .inr (by omega)
          · exact .inl ha

theorem element_short (tag : Nat) (c rest : Bytes) (h : c.length < 128) :
    element tag (tag :: c.length :: (c ++ rest)) = some (c, rest) := by
  simp [element, derLength, h]

theorem integers_two {cr cs : Bytes} {r s : Nat} (hr : Spec.IntOctets cr r) (hs : Spec.IntOctets cs s)
    (lr : cr.length < 128) (ls : cs.length < 128) (n : Nat) :
    integers (n + 2) (2 :: cr.length :: cr ++ 2 :: cs.length :: cs) = some [(r : Int), (s : Int)] := by
  have e1 := element_short 2 cr (2 :: cs.length :: cs) lr
  have e2 := element_short 2 cs [] ls
  rw [List.append_nil] at e2
  simp only [List.cons_append, integers]
  rw [e1]
  simp only [parse_octets hr, integers]
  rw [e2]
  simp only [parse_octets hs]
  cases n <;> rfl

/-- C154. The two numbers are found in what the TPM gives. -/
theorem der_read {sig : Bytes} {r s : Nat} (h : Spec.Der sig r s) (hr : r < 2 ^ 256) (hs : s < 2 ^ 256) :
    unmarshal sig = some [(r : Int), (s : Int)] := by
  obtain ⟨cr, cs, h1, h2, rfl⟩ := h
  have e : (2 : Nat) ^ 256 = 256 ^ 32 := by decide +kernel
  rw [e] at hr hs
  have l1 := octets_length h1 hr (by decide)
  have l2 := octets_length h2 hs (by decide)
  unfold unmarshal
  have hl : (2 :: cr.length :: cr ++ 2 :: cs.length :: cs).length = cr.length + cs.length + 4 := by
    simp only [List.length_append, List.length_cons]
    omega
  have he := element_short 48 (2 :: cr.length :: cr ++ 2 :: cs.length :: cs) [] (by rw [hl]; omega)
  rw [List.append_nil, hl] at he
  rw [he]
  simp only
  rw [hl]
  exact integers_two h1 h2 (by omega) (by omega) (cr.length + cs.length + 2)

/-! ## Signatures -/

/-- C154. Whoever has signed, a signature of the right form comes out, which can be verified. -/
theorem sign_right {c : Crypto} {d : Device} (hd : Spec.Right c d) (k : Key) (hk : Spec.Keys [k]) (msg : Bytes) :
    ∃ m sig, getMethod (Spec.algOf k.pub) = some m ∧ sign c d m k msg = .ok sig ∧ Spec.IsBytes sig ∧
      Spec.Signature c k.pub (Spec.algOf k.pub) msg sig := by
  obtain ⟨k1, k2⟩ := hk k List.mem_cons_self
  have e : (2 : Nat) ^ 256 = 256 ^ 32 := by decide +kernel
  cases hp : k.pub with
  | ec bits q =>
    obtain rfl := k1 bits q hp
    have fin : ∀ a b r s, Spec.Octets 32 a r → Spec.Octets 32 b s → c.ecdsa q (c.hash 256 msg) r s = true →
        Spec.IsBytes (a ++ b) ∧ Spec.Signature c (.ec 256 q) "ES256".toList msg (a ++ b) := by
      intro a b r s oa ob hv
      refine ⟨?_, .es256 oa ob hv⟩
      intro x hx
      rcases List.mem_append.1 hx with hx | hx
      · exact oa.1 x hx
      · exact ob.1 x hx
    cases ht : k.tpm with
    | true =>
      obtain ⟨sig, r, s, h1, h2, h3, h4, h5⟩ := hd.tpmEc k q (c.hash 256 msg) hp
      obtain ⟨a, b, h6, oa, ob⟩ := halves_octets (sz := 32) (e ▸ h3) (e ▸ h4)
      refine ⟨.es 256 32 256, a ++ b, (by show getMethod "ES256".toList = _; decide +kernel), ?_, fin a b r s oa ob h5⟩
      simp only [sign, ht, if_true, tpmEcSign, hp]
      rw [if_neg (by simp), h1]
      simp only [fromDer, der_read h2 h3 h4]
      exact h6
    | false =>
      obtain ⟨r, s, h1, h3, h4, h5⟩ := hd.softEc k q (c.hash 256 msg) hp
      obtain ⟨a, b, h6, oa, ob⟩ := halves_octets (sz := 32) (e ▸ h3) (e ▸ h4)
      refine ⟨.es 256 32 256, a ++ b, (by show getMethod "ES256".toList = _; decide +kernel), ?_, fin a b r s oa ob h5⟩
      simp only [sign, ht, softEcSign, hp]
      rw [if_neg (by simp), h1]
      exact h6
  | rsa n =>
    obtain ⟨sig, h1, h2, h3⟩ := hd.rsa k n 256 (c.hash 256 msg) hp
    refine ⟨.rs 256, sig, (by show getMethod "RS256".toList = _; decide +kernel), ?_, h2, .rs256 h3⟩
    simp only [sign, rsaSign, hp, h1, ofOption]
  | ed q =>
    have ht : k.tpm = false := by
      cases ht : k.tpm with
      | false => rfl
      | true => exact absurd hp (k2 ht q)
    obtain ⟨sig, h1, h2, h3⟩ := hd.ed k q msg hp
    refine ⟨.ed, sig, (by show getMethod "EdDSA".toList = _; decide +kernel), ?_, h2, .eddsa h3⟩
    simp only [sign, ht, edSign, hp, h1, ofOption]
    rfl

/-- What is verified with a key and its algorithm is a signature. -/
theorem verify_signature {c : Crypto} {pub : Pub} {alg : Str} {m : Method} {msg sig : Bytes} (hb : Spec.IsBytes sig)
    (hk : ∀ bits q, pub = .ec bits q → bits = 256) (hm : getMethod alg = some m) (hv : validMethods.contains alg = true) :
    verify c m pub msg sig = true ↔ Spec.Signature c pub alg msg sig := by
  have hv' : alg = "ES256".toList ∨ alg = "RS256".toList ∨ alg = "EdDSA".toList := by
    simpa [validMethods, List.contains_iff_mem] using hv
  have n12 : "ES256".toList ≠ "RS256".toList := by decide +kernel
  have n13 : "ES256".toList ≠ "EdDSA".toList := by decide +kernel
  have n23 : "RS256".toList ≠ "EdDSA".toList := by decide +kernel
  have g1 : getMethod "ES256".toList = some (.es 256 32 256) := by decide +kernel
  have g2 : getMethod "RS256".toList = some (.rs 256) := by decide +kernel
  have g3 : getMethod "EdDSA".toList = some .ed := by decide +kernel
  rcases hv' with rfl | rfl | rfl
  · rw [g1] at hm
    cases hm
    cases pub with
    | ec bits q =>
      obtain rfl := hk bits q rfl
      unfold verify
      dsimp only
      constructor
      · intro h
        split at h
        · cases h
        · next hl =>
          have hl : sig.length = 2 * 32 := Decidable.of_not_not hl
          rw [setBytes_value, setBytes_value] at h
          have := Spec.Signature.es256 (c := c) (q := q) (msg := msg) (a := sig.take 32) (b := sig.drop 32)
            ⟨fun b h => hb b (List.mem_of_mem_take h), by rw [List.length_take, hl]; decide, rfl⟩
            ⟨fun b h => hb b (List.mem_of_mem_drop h), by rw [List.length_drop, hl], rfl⟩ h
          rwa [List.take_append_drop] at this
      · intro h
        generalize hx : "ES256".toList = alg at h
        cases h with
        | @es256 _ _ a b r s oa ob hs =>
          rw [if_neg (by rw [List.length_append, oa.2.1, ob.2.1]; decide)]
          rw [List.take_left' oa.2.1, List.drop_left' oa.2.1, setBytes_value, setBytes_value, oa.2.2, ob.2.2]
          exact hs
    | rsa n =>
      refine ⟨fun h => (nomatch h), fun h => ?_⟩
      generalize hx : "ES256".toList = alg at h
      cases h
      exact absurd hx n12
    | ed q =>
      refine ⟨fun h => (nomatch h), fun h => ?_⟩
      generalize hx : "ES256".toList = alg at h
      cases h
      exact absurd hx n13
  · rw [g2] at hm
    cases hm
    cases pub with
    | ec bits q =>
      refine ⟨fun h => (nomatch h), fun h => ?_⟩
      generalize hx : "RS256".toList = alg at h
      cases h
      exact absurd hx.symm n12
    | rsa n =>
      refine ⟨fun h => .rs256 h, fun h => ?_⟩
      generalize hx : "RS256".toList = alg at h
      cases h
      assumption
    | ed q =>
      refine ⟨fun h => (nomatch h), fun h => ?_⟩
      generalize hx : "RS256".toList = alg at h
      cases h
      exact absurd hx n23
  · rw [g3] at hm
    cases hm
    cases pub with
    | ec bits q =>
      refine ⟨fun h => (nomatch h), fun h => ?_⟩
      generalize hx : "EdDSA".toList = alg at h
      cases h
      exact absurd hx.symm n13
    | rsa n =>
      refine ⟨fun h => (nomatch h), fun h => ?_⟩
      generalize hx : "EdDSA".toList = alg at h
      cases h
      exact absurd hx.symm n23
    | ed q =>
      refine ⟨fun h => .eddsa h, fun h => ?_⟩
      generalize hx : "EdDSA".toList = alg at h
      cases h
      assumption

/-! ## Texts -/

theorem splitDots_plain {s : Str} (h : '.' ∉ s) : splitDots s = [s] := by
  induction s with
  | nil => rfl
  | cons c s ih =>
    rw [splitDots, if_neg (fun e : c = '.' => h (e ▸ List.mem_cons_self)), ih fun m => h (List.mem_cons_of_mem _ m)]

theorem splitDots_dot {a : Str} (h : '.' ∉ a) (b : Str) : splitDots (a ++ '.' :: b) = a :: splitDots b := by
  induction a with
  | nil => rw [List.nil_append, splitDots, if_pos rfl]
  | cons c a ih =>
    rw [List.cons_append, splitDots, if_neg (fun e : c = '.' => h (e ▸ List.mem_cons_self)),
      ih fun m => h (List.mem_cons_of_mem _ m)]

theorem splitDots_ne (t : Str) : splitDots t ≠ [] := by
  cases t with
  | nil => simp [splitDots]
  | cons c t =>
    rw [splitDots]
    split
    · simp
    · split <;> simp

theorem splitDots_one {t a : Str} (h : splitDots t = [a]) : t = a ∧ '.' ∉ a := by
  induction t generalizing a with
  | nil => cases h; exact ⟨rfl, fun h => (nomatch h)⟩
  | cons c t ih =>
    rw [splitDots] at h
    split at h
    · exact absurd (List.cons.inj h).2 (splitDots_ne t)
    · next hc =>
      cases hs : splitDots t with
      | nil => exact absurd hs (splitDots_ne t)
      | cons x l =>
        rw [hs] at h
        obtain ⟨rfl, rfl⟩ := List.cons.inj h
        obtain ⟨h1, h2⟩ := ih hs
        subst h1
        refine ⟨rfl, fun h => ?_⟩
        rcases List.mem_cons.1 h with h | h
        · exact hc h.symm
        · exact h2 h

theorem splitDots_cons {t a b : Str} {l : List Str} (h : splitDots t = a :: b :: l) :
    ∃ u, t = a ++ '.' :: u ∧ '.' ∉ a ∧ splitDots u = b :: l := by
  induction t generalizing a with
  | nil => cases h
  | cons c t ih =>
    rw [splitDots] at h
    split at h
    · next hc =>
      obtain ⟨rfl, h2⟩ := List.cons.inj h
      exact ⟨t, by rw [hc]; rfl, fun h => (nomatch h), h2⟩
    · next hc =>
      cases hs : splitDots t with
      | nil => exact absurd hs (splitDots_ne t)
      | cons x l' =>
        rw [hs] at h
        obtain ⟨rfl, rfl⟩ := List.cons.inj h
        obtain ⟨u, rfl, h2, h3⟩ := ih hs
        refine ⟨u, rfl, fun h => ?_, h3⟩
        rcases List.mem_cons.1 h with h | h
        · exact hc h.symm
        · exact h2 h

theorem split_three {t a b s : Str} :
    splitDots t = [a, b, s] ↔ t = a ++ '.' :: (b ++ '.' :: s) ∧ '.' ∉ a ∧ '.' ∉ b ∧ '.' ∉ s := by
  constructor
  · intro h
    obtain ⟨u, rfl, h1, h2⟩ := splitDots_cons h
    obtain ⟨v, rfl, h3, h4⟩ := splitDots_cons h2
    obtain ⟨rfl, h5⟩ := splitDots_one h4
    exact ⟨rfl, h1, h3, h5⟩
  · rintro ⟨rfl, h1, h2, h3⟩
    rw [splitDots_dot h1, splitDots_dot h2, splitDots_plain h3]

theorem letter_dot : ∀ n : Fin 64, OcspHttp.Spec.letter true n ≠ '.' ∧
    OcspHttp.translate (OcspHttp.Spec.letter true n) = OcspHttp.Spec.letter true n := by decide +kernel

theorem encode_read {l : Bytes} (h : Spec.IsBytes l) : '.' ∉ Jwks.encode l ∧ OcspHttp.decode64 (Jwks.encode l) = some l := by
  obtain ⟨-, e⟩ := Jwks.encode_eq l h
  unfold OcspHttp.Spec.base64 at e
  rw [if_neg (by simp), List.append_nil] at e
  rw [e]
  have lt := OcspHttp.sextets_lt l h
  constructor
  · intro hm
    obtain ⟨n, hn, he⟩ := List.mem_map.1 hm
    exact (letter_dot ⟨n, lt n hn⟩).1 he
  · have hd := OcspHttp.decode_letters true _ lt
    have : ((OcspHttp.Spec.sextets l).map (OcspHttp.Spec.letter true)).map OcspHttp.translate =
        (OcspHttp.Spec.sextets l).map (OcspHttp.Spec.letter true) := by
      rw [List.map_map]
      exact List.map_congr_left fun n hn => (letter_dot ⟨n, lt n hn⟩).2
    rw [this, OcspHttp.groups_sextets l h] at hd
    exact hd

theorem sextet_lt {ch : Char} {n : Nat} (h : OcspHttp.sextet ch = some n) : n < 64 := by
  unfold OcspHttp.sextet at h
  have le : ∀ {a b : Char}, a ≤ b → a.toNat ≤ b.toNat := fun h => h
  have e1 : 'Z'.toNat = 90 := rfl
  have e2 : 'z'.toNat = 122 := rfl
  have e3 : '9'.toNat = 57 := rfl
  split at h
  · next hc => cases h; have := le hc.2; omega
  split at h
  · next hc => cases h; have := le hc.2; omega
  split at h
  · next hc => cases h; have := le hc.2; omega
  split at h
  · cases h; decide
  split at h
  · cases h; decide
  · cases h

theorem mapM_lt {l : Str} {ns : List Nat} (h : l.mapM OcspHttp.sextet = some ns) : ∀ n ∈ ns, n < 64 := by
  induction l generalizing ns with
  | nil => cases h; exact fun _ h => (nomatch h)
  | cons c l ih =>
    rw [List.mapM_cons] at h
    cases hc : OcspHttp.sextet c with
    | none => rw [hc] at h; cases h
    | some x =>
      cases hl : l.mapM OcspHttp.sextet with
      | none => rw [hc, hl] at h; cases h
      | some xs =>
        rw [hc, hl] at h
        cases h
        intro n hn
        rcases List.mem_cons.1 hn with rfl | hn
        · exact sextet_lt hc
        · exact ih hl n hn

theorem groups_bytes {l b : List Nat} (h : OcspHttp.groups l = some b) (hl : ∀ n ∈ l, n < 64) : Spec.IsBytes b := by
  fun_induction OcspHttp.groups l generalizing b with
  | case1 => cases h; exact fun _ h => (nomatch h)
  | case2 => cases h
  | case3 x y =>
    cases h
    have := hl x (by simp)
    have := hl y (by simp)
    intro n hn
    simp only [List.mem_cons, List.not_mem_nil, or_false] at hn
    omega
  | case4 x y z =>
    cases h
    have := hl x (by simp)
    have := hl y (by simp)
    have := hl z (by simp)
    intro n hn
    simp only [List.mem_cons, List.not_mem_nil, or_false] at hn
    omega
  | case5 x y z w t ih =>
    cases ht : OcspHttp.groups t with
    | none => rw [ht] at h; cases h
    | some b' =>
      rw [ht] at h
      cases h
      have := hl x (by simp)
      have := hl y (by simp)
      have := hl z (by simp)
      have := hl w (by simp)
      intro n hn
      rcases List.mem_append.1 hn with hn | hn
      · simp only [List.mem_cons, List.not_mem_nil, or_false] at hn
        omega
      · exact ih ht (fun n hn => hl n (by simp [hn])) n hn

theorem decode_bytes {s : Str} {b : Bytes} (h : OcspHttp.decode64 s = some b) : Spec.IsBytes b := by
  unfold OcspHttp.decode64 at h
  split at h
  · cases h
  · next l hm => exact groups_bytes h (mapM_lt hm)

/-! ## C154 -/

theorem valid_alg {alg : Str} {c : Crypto} {pub : Pub} {msg sig : Bytes} (h : Spec.Signature c pub alg msg sig) :
    validMethods.contains alg = true ∧ ∃ m, getMethod alg = some m := by
  cases h with
  | es256 => exact ⟨by decide +kernel, .es 256 32 256, by decide +kernel⟩
  | rs256 => exact ⟨by decide +kernel, .rs 256, by decide +kernel⟩
  | eddsa => exact ⟨by decide +kernel, .ed, by decide +kernel⟩

theorem getKey_iff {keys : List Key} (hu : (keys.map Key.id).Nodup) (h : Header) (k : Key) :
    getKey keys h = some k ↔ k ∈ keys ∧ h.kid = some k.id := by
  unfold getKey
  constructor
  · intro hf
    exact ⟨List.mem_of_find?_eq_some hf, by simpa using List.find?_some hf⟩
  · rintro ⟨hm, hk⟩
    induction keys with
    | nil => cases hm
    | cons a l ih =>
      rw [List.map_cons, List.nodup_cons] at hu
      rw [List.find?_cons]
      rcases List.mem_cons.1 hm with rfl | hm
      · simp [hk]
      · have hne : a.id ≠ k.id := fun e => hu.1 (e ▸ List.mem_map_of_mem hm)
        have : decide (h.kid = some a.id) = false := by
          rw [hk]
          simpa using fun e => hne e.symm
        rw [this]
        exact ih hu.2 hm

/-- C154. Exactly the tokens that one of the keys has signed with its own algorithm are accepted, with the claims that
were signed: not those that name another algorithm, another key, or none, and not those whose signature has another
length. -/
theorem accepted_iff {γ : Type} (j : Codec γ) (c : Crypto) (keys : List Key) (hk : Spec.Keys keys)
    (hu : (keys.map Key.id).Nodup) (t : Str) (cl : γ) :
    validateToken j c keys t = some cl ↔ Spec.Token j c keys t cl := by
  constructor
  · intro h
    unfold validateToken at h
    split at h
    · next a b s hs =>
      obtain ⟨ht, ha, hb, hs⟩ := split_three.1 hs
      unfold checkParts at h
      split at h
      · next h' cl' e1 e2 =>
        split at h
        · cases h
        · next alg halg =>
          split at h
          · cases h
          · next m hm =>
            split at h
            · cases h
            · next hv =>
              split at h
              · next sig k e3 e4 =>
                split at h
                · next hver =>
                  cases h
                  rw [Option.bind_eq_some_iff] at e1 e2
                  obtain ⟨x1, d1, r1⟩ := e1
                  obtain ⟨x2, d2, r2⟩ := e2
                  obtain ⟨hmem, hid⟩ := (getKey_iff hu _ _).1 e4
                  refine ⟨a, b, s, x1, x2, sig, h', k, ht, ha, hb, hs, d1, d2, e3, r1, r2, hmem, hid, alg, halg, ?_⟩
                  exact (verify_signature (decode_bytes e3) (hk k hmem).1 hm (by simpa using hv)).1 hver
                · cases h
              · cases h
      · cases h
    · cases h
  · rintro ⟨a, b, s, hb, cb, sig, h, k, ht, ha, hb', hs, d1, d2, d3, r1, r2, hmem, hid, alg, halg, hsig⟩
    obtain ⟨hv, m, hm⟩ := valid_alg hsig
    unfold validateToken
    rw [split_three.2 ⟨ht, ha, hb', hs⟩]
    simp only
    unfold checkParts
    rw [d1, d2]
    simp only [Option.bind_some, r1, r2, halg, hm, hv, d3, (getKey_iff hu h k).2 ⟨hmem, hid⟩]
    rw [if_neg (by simp), if_pos ((verify_signature (decode_bytes d3) (hk k hmem).1 hm hv).2 hsig)]

/-- C154. The tokens that the proxy makes, with any of its keys, are accepted, with the claims that they were made with. -/
theorem made_accepted {γ : Type} (j : Codec γ) (keys : List Key) (hj : Spec.Reads j keys) (c : Crypto) (d : Device)
    (hd : Spec.Right c d) (hk : Spec.Keys keys) (hu : (keys.map Key.id).Nodup) (k : Key) (hm : k ∈ keys) (haveTpm : Bool)
    (alg : Str) (ha : alg = Spec.algOf k.pub ∨
      (alg = [] ∧ if haveTpm then ∃ b q, k.pub = .ec b q else ∃ q, k.pub = .ed q)) (cl : γ) :
    ∃ t, createToken j c d haveTpm alg k cl = .ok t ∧ Spec.Token j c keys t cl ∧ validateToken j c keys t = some cl := by
  have halg : (if alg = [] then (if haveTpm then "ES256".toList else "EdDSA".toList) else alg) = Spec.algOf k.pub := by
    rcases ha with rfl | ⟨rfl, h⟩
    · cases k.pub <;> rw [if_neg] <;> simp only [Spec.algOf] <;> decide +kernel
    · rw [if_pos rfl]
      cases haveTpm with
      | true =>
        obtain ⟨b, q, h⟩ := h
        rw [h]; rfl
      | false =>
        obtain ⟨q, h⟩ := h
        rw [h]; rfl
  have hk1 : Spec.Keys [k] := fun k' h => by
    obtain rfl := List.mem_singleton.1 h
    exact hk _ hm
  obtain ⟨m, sig, h1, h2, h3, h4⟩ := sign_right hd k hk1 (ascii (signingString j ⟨some (Spec.algOf k.pub), some k.id⟩ cl))
  have hw := hj.1 k hm
  have hc := hj.2 cl
  have ht : Spec.Token j c keys (signingString j ⟨some (Spec.algOf k.pub), some k.id⟩ cl ++ '.' :: Jwks.encode sig) cl := by
    refine ⟨_, _, _, _, _, sig, ⟨some (Spec.algOf k.pub), some k.id⟩, k, ?_, (encode_read hw.1).1, (encode_read hc.1).1,
      (encode_read h3).1, (encode_read hw.1).2, (encode_read hc.1).2, (encode_read h3).2, hw.2, hc.2, hm, rfl,
      Spec.algOf k.pub, rfl, h4⟩
    simp [signingString, List.append_assoc]
  refine ⟨_, ?_, ht, (accepted_iff j c keys hk hu _ cl).2 ht⟩
  unfold createToken
  simp only [halg, h1, h2]

/-- C154. With another algorithm no token is made at all; so none is made that nobody can verify. -/
theorem other_algorithms {γ : Type} (j : Codec γ) (c : Crypto) (d : Device) (haveTpm : Bool) (k : Key) (hk : Spec.Keys [k])
    (bits keySize hash : Nat) (hb : bits ≠ 256) (alg : Str) (hn : alg ≠ []) (hm : getMethod alg = some (.es bits keySize hash))
    (cl : γ) : createToken j c d haveTpm alg k cl = .err := by
  unfold createToken
  simp only [if_neg hn, hm, sign]
  have : (if k.tpm = true then tpmEcSign c d bits hash k (ascii (signingString j ⟨some alg, some k.id⟩ cl))
      else softEcSign c d bits hash k (ascii (signingString j ⟨some alg, some k.id⟩ cl))) = .err := by
    cases hp : k.pub with
    | ec kb q =>
      obtain rfl := (hk k List.mem_cons_self).1 kb q hp
      split
      · simp only [tpmEcSign, hp, if_pos hb]
      · simp only [softEcSign, hp, if_pos hb]
        split <;> rfl
    | rsa n => split <;> simp only [tpmEcSign, softEcSign, hp]
    | ed q => split <;> simp only [tpmEcSign, softEcSign, hp]
  rw [this]

/-- C154. A token is never accepted twice with different claims or keys: who reads it in the way of RFC 7515 finds one
meaning. -/
theorem one_meaning {γ : Type} (j : Codec γ) (c : Crypto) (keys : List Key) (hk : Spec.Keys keys)
    (hu : (keys.map Key.id).Nodup) (t : Str) (cl cl' : γ) (h : Spec.Token j c keys t cl) (h' : Spec.Token j c keys t cl') :
    cl = cl' := by
  have h1 := (accepted_iff j c keys hk hu t cl).2 h
  rw [(accepted_iff j c keys hk hu t cl').2 h'] at h1
  exact (Option.some.inj h1).symm

/-- C154. What is accepted is decided by what is signed, not by how its signature is written: `base64` of Go skips line
breaks, which RFC 7515 does not allow. So the text of a token is no name for it. -/
theorem other_text {γ : Type} (j : Codec γ) (c : Crypto) (keys : List Key) (hk : Spec.Keys keys)
    (hu : (keys.map Key.id).Nodup) (t : Str) (cl : γ) (h : validateToken j c keys t = some cl) :
    validateToken j c keys (t ++ ['\n']) = some cl ∧ t ++ ['\n'] ≠ t := by
  refine ⟨?_, by simp⟩
  obtain ⟨a, b, s, hb, cb, sig, hh, k, rfl, ha, hb', hs, d1, d2, d3, rest⟩ := (accepted_iff j c keys hk hu t cl).1 h
  refine (accepted_iff j c keys hk hu _ cl).2 ⟨a, b, s ++ ['\n'], hb, cb, sig, hh, k, by simp [List.append_assoc], ha, hb',
    ?_, d1, d2, ?_, rest⟩
  · intro hm
    rcases List.mem_append.1 hm with hm | hm
    · exact hs hm
    · exact absurd hm (by decide)
  · unfold OcspHttp.decode64 at d3 ⊢
    rw [List.filter_append]
    have : ['\n'].filter (fun c => decide (c ≠ '\n' ∧ c ≠ '\r')) = [] := by decide
    rw [this, List.append_nil]
    exact d3

/-! ## Examples -/

namespace Ex

/-- Numbers for the mathematics: the signature of a digest is the digest's length and 1, short numbers. -/
def crypto : Crypto where
  hash _ m := [m.length % 256]
  ecdsa q h r s := r = h.headD 0 + q && s = 1
  pkcs1 n _ h sig := sig = h ++ [n % 256]
  pss _ _ _ _ := true
  ed25519 q m sig := sig = [m.length % 256, q % 256]

theorem one : Spec.IntOctets [1] 1 := ⟨by unfold Spec.IsBytes; decide, rfl, 1, [], rfl, by decide, fun h => (nomatch h)⟩

theorem five : Spec.IntOctets [5] 5 := ⟨by unfold Spec.IsBytes; decide, rfl, 5, [], rfl, by decide, fun h => (nomatch h)⟩

/-- A signature with many leading zeros, in DER: no octet for the sign is needed. -/
example : Spec.Der [48, 6, 2, 1, 5, 2, 1, 1] 5 1 :=
  ⟨[5], [1], five, one, rfl⟩

/-- One whose first bit needs an octet for the sign. -/
example : Spec.Der [48, 7, 2, 2, 0, 200, 2, 1, 1] 200 1 :=
  ⟨[0, 200], [1], ⟨(by unfold Spec.IsBytes; decide), rfl, 0, [200], rfl, by decide, fun _ => .inr ⟨200, [], rfl, by decide⟩⟩,
    one, rfl⟩

example : fromDer 32 [48, 7, 2, 2, 0, 200, 2, 1, 1] = .ok (List.replicate 31 0 ++ 200 :: (List.replicate 31 0 ++ [1])) := by
  decide +kernel

def octets (n : Nat) : Bytes := if n < 128 then [n] else [0, n]

def device : Device where
  tpmEc k h := match k.pub with
    | .ec _ q => let n := h.headD 0 % 256 + q
      if n < 256 then some (48 :: ((octets n).length + 1 + 4) :: (2 :: (octets n).length :: octets n ++ [2, 1, 1])) else none
    | _ => none
  softEc k h := match k.pub with
    | .ec _ q => some (h.headD 0 + q, 1)
    | _ => none
  rsa k _ h := match k.pub with
    | .rsa n => some (h ++ [n % 256])
    | _ => none
  ed k m := match k.pub with
    | .ed q => some [m.length % 256, q % 256]
    | _ => none

def keys : List Key :=
  [⟨"k1".toList, .ec 256 0, true⟩, ⟨"k2".toList, .ec 256 3, false⟩, ⟨"k3".toList, .rsa 9, true⟩, ⟨"k4".toList, .ed 7, false⟩]

theorem keys_ok : Spec.Keys keys := by
  intro k hk
  simp only [keys, List.mem_cons, List.not_mem_nil, or_false] at hk
  rcases hk with rfl | rfl | rfl | rfl
  · exact ⟨fun _ _ h => by cases h; rfl, fun _ _ h => (nomatch h)⟩
  · exact ⟨fun _ _ h => by cases h; rfl, fun _ _ h => (nomatch h)⟩
  · exact ⟨fun _ _ h => (nomatch h), fun _ _ h => (nomatch h)⟩
  · exact ⟨fun _ _ h => (nomatch h), fun h => (nomatch h)⟩

theorem ids : (keys.map Key.id).Nodup := by decide +kernel

/-- Headers are two texts with a separator; claims are bytes. -/
def codec : Codec Bytes where
  writeHeader h := (ascii (h.alg.getD [])) ++ 0 :: ascii (h.kid.getD [])
  readHeader b := some ⟨some ((b.takeWhile (· ≠ 0)).map Char.ofNat), some (((b.dropWhile (· ≠ 0)).drop 1).map Char.ofNat)⟩
  writeClaims c := c
  readClaims c := some c

def read (alg : String) (k : Key) : Option Bytes :=
  match createToken codec crypto device true alg.toList k [1, 2, 3] with
  | .ok t => validateToken codec crypto keys t
  | _ => none

/-- A token that the TPM has signed. -/
example : read "ES256" ⟨"k1".toList, .ec 256 0, true⟩ = some [1, 2, 3] := by decide +kernel

/-- One that the library has signed. -/
example : read "EdDSA" ⟨"k4".toList, .ed 7, false⟩ = some [1, 2, 3] := by decide +kernel

/-- A key that the proxy does not have, under the name of one that it has. -/
example : read "ES256" ⟨"k1".toList, .ec 256 1, true⟩ = none := by decide +kernel

/-- RS256 with the key for ES256. -/
example : read "RS256" ⟨"k1".toList, .rsa 9, true⟩ = none := by decide +kernel

example : createToken codec crypto device true "ES512".toList ⟨"k1".toList, .ec 256 0, true⟩ [1, 2, 3] = .err :=
  other_algorithms _ _ _ _ _ (fun k h => keys_ok k (by
    obtain rfl := List.mem_singleton.1 h
    exact List.mem_cons_self)) 521 66 512 (by decide) _ (by decide) (by decide +kernel) _

/-- Claims that are written with two bytes, and signatures that do not depend on what is signed. -/
def bits : Codec (List Bool) where
  writeHeader := codec.writeHeader
  readHeader := codec.readHeader
  writeClaims c := c.map fun b => if b then 1 else 0
  readClaims b := some (b.map (· = 1))

def always : Crypto where
  hash _ _ := []
  ecdsa _ _ r s := r = 5 && s = 1
  pkcs1 _ _ _ sig := sig = [1]
  pss _ _ _ _ := true
  ed25519 _ _ sig := sig = [2]

def signer : Device where
  tpmEc _ _ := some [48, 6, 2, 1, 5, 2, 1, 1]
  softEc _ _ := some (5, 1)
  rsa _ _ _ := some [1]
  ed _ _ := some [2]

theorem right : Spec.Right always signer where
  tpmEc _ _ _ _ := ⟨_, 5, 1, rfl, ⟨[5], [1], five, one, rfl⟩, by decide, by decide, rfl⟩
  softEc _ _ _ _ := ⟨5, 1, rfl, by decide, by decide, rfl⟩
  rsa _ _ _ _ _ := ⟨[1], rfl, by unfold Spec.IsBytes; decide, rfl⟩
  ed _ _ _ _ := ⟨[2], rfl, by unfold Spec.IsBytes; decide, rfl⟩

theorem reads : Spec.Reads bits keys := by
  refine ⟨?_, fun cl => ⟨?_, ?_⟩⟩
  · unfold Spec.IsBytes
    decide +kernel
  · intro b hb
    obtain ⟨x, _, rfl⟩ := List.mem_map.1 hb
    cases x <;> decide
  · show some ((cl.map fun b => if b then 1 else 0).map fun x => decide (x = 1)) = some cl
    rw [List.map_map]
    conv => rhs; rw [← List.map_id cl]
    congr 1
    exact List.map_congr_left fun x _ => by cases x <;> rfl

example (cl : List Bool) : ∃ t, createToken bits always signer true [] ⟨"k1".toList, .ec 256 0, true⟩ cl = .ok t ∧
    Spec.Token bits always keys t cl ∧ validateToken bits always keys t = some cl :=
  made_accepted bits keys reads always signer right keys_ok ids _ (by decide +kernel) true [] (.inr ⟨rfl, _, _, rfl⟩) cl

/-- A token with an accepted meaning, and so all premises of `one_meaning` and `accepted_iff` for it. -/
example : ∃ t, validateToken codec crypto keys t = some [1, 2, 3] ∧ Spec.Token codec crypto keys t [1, 2, 3] := by
  have h : ∃ t, createToken codec crypto device true "ES256".toList ⟨"k1".toList, .ec 256 0, true⟩ [1, 2, 3] = .ok t ∧
      validateToken codec crypto keys t = some [1, 2, 3] := by
    refine ⟨(match createToken codec crypto device true "ES256".toList ⟨"k1".toList, .ec 256 0, true⟩ [1, 2, 3] with
      | .ok t => t
      | _ => []), ?_, ?_⟩ <;> decide +kernel
  obtain ⟨t, _, h⟩ := h
  exact ⟨t, h, (accepted_iff _ _ _ keys_ok ids _ _).1 h⟩

end Ex

end Verif.Sign
