import Verif.Model.Authdata

/-!
# Authenticator data properties (C65)
-/

namespace Verif.Authdata

/-! ## The format, from the WebAuthn specification -/

namespace Spec

/-- The flags byte; bits 1 and 5 are reserved. -/
def flags (d : Data) (r1 r5 : Bool) : UInt8 :=
  UInt8.ofNat (d.up.toNat + 2 * r1.toNat + 4 * d.uv.toNat + 8 * d.be.toNat + 16 * d.bs.toNat +
    32 * r5.toNat + 64 * d.at'.toNat + 128 * d.ed.toNat)

def be16 (n : Nat) : Bytes := [UInt8.ofNat (n / 256), UInt8.ofNat n]

def be32 (n : Nat) : Bytes :=
  [UInt8.ofNat (n / 16777216), UInt8.ofNat (n / 65536), UInt8.ofNat (n / 256), UInt8.ofNat n]

def credBytes : Option Creds → Bytes
  | none => []
  | some c => c.aaguid ++ (be16 c.id.length ++ (c.id ++ c.cose))

/-- Encoding of `d` with the reserved bits and the bytes that follow (extensions). -/
def encode (d : Data) (r1 r5 : Bool) (rest : Bytes) : Bytes :=
  d.rp ++ (flags d r1 r5 :: (be32 d.count ++ (credBytes d.creds ++ rest)))

/-- Values the format can express. -/
structure Valid (d : Data) : Prop where
  rp : d.rp.length = 32
  count : d.count < 4294967296
  creds : d.at' = d.creds.isSome
  aaguid : ∀ c, d.creds = some c → c.aaguid.length = 16 ∧ c.id.length ≤ 1023

end Spec

open Spec

theorem flag_bits (up r1 uv be bs r5 at' ed : Bool) :
    let b := UInt8.ofNat (up.toNat + 2 * r1.toNat + 4 * uv.toNat + 8 * be.toNat + 16 * bs.toNat +
      32 * r5.toNat + 64 * at'.toNat + 128 * ed.toNat)
    (b &&& 1 != 0) = up ∧ ((b >>> 2) &&& 1 != 0) = uv ∧ ((b >>> 3) &&& 1 != 0) = be ∧
      ((b >>> 4) &&& 1 != 0) = bs ∧ ((b >>> 6) &&& 1 != 0) = at' ∧
      ((b >>> 7) &&& 1 != 0) = ed := by
  cases up <;> cases r1 <;> cases uv <;> cases be <;> cases bs <;> cases r5 <;> cases at' <;>
    cases ed <;> decide

theorem byte_flags (n : Fin 256) :
    let b := UInt8.ofNat n.val
    ∃ r1 r5 : Bool, b = UInt8.ofNat ((b &&& 1 != 0).toNat + 2 * r1.toNat +
      4 * ((b >>> 2) &&& 1 != 0).toNat + 8 * ((b >>> 3) &&& 1 != 0).toNat +
      16 * ((b >>> 4) &&& 1 != 0).toNat + 32 * r5.toNat + 64 * ((b >>> 6) &&& 1 != 0).toNat +
      128 * ((b >>> 7) &&& 1 != 0).toNat) := by
  revert n
  decide +kernel

theorem beNat_be16 (n : Nat) (h : n < 65536) : beNat (be16 n) = n := by
  simp [beNat, be16, List.foldl, UInt8.toNat_ofNat']
  omega

theorem beNat_be32 (n : Nat) (h : n < 4294967296) : beNat (be32 n) = n := by
  simp [beNat, be32, List.foldl, UInt8.toNat_ofNat']
  omega

theorem ofNat_toNat_add (a : UInt8) (x : Nat) : UInt8.ofNat (x * 256 + a.toNat) = a := by
  apply UInt8.toNat_inj.1
  rw [UInt8.toNat_ofNat']
  have := a.toNat_lt
  omega

theorem be16_beNat (s : Bytes) (h : s.length = 2) : be16 (beNat s) = s ∧ beNat s < 65536 := by
  match s, h with
  | [a, b], _ =>
    have ha := a.toNat_lt
    have hb := b.toNat_lt
    have hv : beNat [a, b] = a.toNat * 256 + b.toNat := by simp [beNat]
    rw [hv]
    refine ⟨?_, by omega⟩
    unfold be16
    rw [ofNat_toNat_add, show (a.toNat * 256 + b.toNat) / 256 = 0 * 256 + a.toNat by omega,
      ofNat_toNat_add]

theorem be32_beNat (s : Bytes) (h : s.length = 4) : be32 (beNat s) = s ∧ beNat s < 4294967296 := by
  match s, h with
  | [a, b, c, d], _ =>
    have ha := a.toNat_lt
    have hb := b.toNat_lt
    have hc := c.toNat_lt
    have hd := d.toNat_lt
    have hv : beNat [a, b, c, d] = ((a.toNat * 256 + b.toNat) * 256 + c.toNat) * 256 + d.toNat := by
      simp [beNat]
    rw [hv]
    refine ⟨?_, by omega⟩
    unfold be32
    rw [ofNat_toNat_add]
    rw [show (((a.toNat * 256 + b.toNat) * 256 + c.toNat) * 256 + d.toNat) / 256 =
      (a.toNat * 256 + b.toNat) * 256 + c.toNat by omega, ofNat_toNat_add]
    rw [show (((a.toNat * 256 + b.toNat) * 256 + c.toNat) * 256 + d.toNat) / 65536 =
      a.toNat * 256 + b.toNat by omega, ofNat_toNat_add]
    rw [show (((a.toNat * 256 + b.toNat) * 256 + c.toNat) * 256 + d.toNat) / 16777216 =
      0 * 256 + a.toNat by omega, ofNat_toNat_add]

theorem cut_append {n : Nat} {a b : Bytes} (h : a.length = n) : cut n (a ++ b) = .ok (a, b) := by
  subst h
  unfold cut
  rw [if_pos (by simp), List.take_left, List.drop_left]

theorem cut_ok {n : Nat} {s : Bytes} (h : n ≤ s.length) : cut n s = .ok (s.take n, s.drop n) := by
  unfold cut
  rw [if_pos h]

/-! ## No panic -/

theorem parseCreds_no_panic (first : Bytes → Option (Bytes × Bytes)) (raw : Bytes) :
    parseCreds first raw ≠ .panic := by
  unfold parseCreds
  split
  · simp
  · rw [cut_ok (by omega)]
    simp only [Res.bind]
    rw [cut_ok (by simp; omega)]
    simp only []
    split
    · simp
    · split
      · simp
      · rename_i h
        rw [cut_ok (by omega)]
        simp only []
        split <;> simp

/-- C65: no input makes the parser panic. -/
theorem parse_no_panic (first : Bytes → Option (Bytes × Bytes)) (raw : Bytes) :
    parse first raw ≠ .panic := by
  unfold parse
  split
  · simp
  · rename_i h
    rw [cut_ok (by omega)]
    simp only [Res.bind]
    cases hd : raw.drop 32 with
    | nil =>
      have := congrArg List.length hd
      simp at this
      omega
    | cons b t =>
      have hl := congrArg List.length hd
      simp at hl
      simp only [idx0]
      rw [cut_ok (by simp)]
      simp only [List.drop_succ_cons, List.drop_zero]
      rw [cut_ok (by omega)]
      simp only []
      split
      · have := parseCreds_no_panic first (t.drop 4)
        revert this
        generalize parseCreds first (t.drop 4) = r
        intro this
        cases r with
        | ok => simp
        | err => simp
        | panic => exact absurd rfl this
      · simp

/-! ## Exactness -/

theorem parseCreds_encode (first : Bytes → Option (Bytes × Bytes)) (c : Creds) (rest : Bytes)
    (h1 : c.aaguid.length = 16) (h2 : c.id.length ≤ 1023)
    (hf : first (c.cose ++ rest) = some (c.cose, rest)) :
    parseCreds first (credBytes (some c) ++ rest) = .ok c := by
  unfold parseCreds
  have hb : (be16 c.id.length).length = 2 := rfl
  rw [if_neg (by simp only [credBytes, List.length_append, hb]; omega)]
  simp only [credBytes, List.append_assoc]
  rw [cut_append h1]
  simp only [Res.bind]
  rw [cut_append hb]
  simp only []
  rw [beNat_be16 _ (by omega), if_neg (by omega), if_neg (by simp), cut_append rfl]
  simp only [hf]

/-- C65: well-formed data is parsed to exactly what it encodes, whatever follows it. `hf` says that
the CBOR library recognises the key. -/
theorem parse_encode (first : Bytes → Option (Bytes × Bytes)) (d : Data) (hv : Valid d)
    (r1 r5 : Bool) (rest : Bytes)
    (hf : ∀ c, d.creds = some c → first (c.cose ++ rest) = some (c.cose, rest)) :
    parse first (encode d r1 r5 rest) = .ok d := by
  obtain ⟨f1, f2, f3, f4, f5, f6⟩ := flag_bits d.up r1 d.uv d.be d.bs r5 d.at' d.ed
  have hb : (be32 d.count).length = 4 := rfl
  unfold parse encode
  rw [if_neg (by simp only [List.length_append, List.length_cons, hb, hv.rp]; omega),
    cut_append hv.rp]
  simp only [Res.bind, idx0]
  rw [cut_ok (by simp)]
  simp only [List.drop_succ_cons, List.drop_zero]
  rw [cut_append hb]
  unfold flags
  simp only [f1, f2, f3, f4, f5, f6]
  rw [beNat_be32 _ hv.count]
  obtain ⟨rp, up, uv, be, bs, at', ed, count, creds⟩ := d
  have hc := hv.creds
  cases creds with
  | none =>
    simp only [Option.isSome] at hc
    subst hc
    rfl
  | some c =>
    simp only [Option.isSome] at hc
    subst hc
    obtain ⟨ha, hi⟩ := hv.aaguid c rfl
    simp only [if_true]
    rw [parseCreds_encode first c rest ha hi (hf c rfl)]

theorem parseCreds_ok (first : Bytes → Option (Bytes × Bytes))
    (hf : ∀ s a b, first s = some (a, b) → s = a ++ b) (raw : Bytes) (c : Creds)
    (h : parseCreds first raw = .ok c) :
    c.aaguid.length = 16 ∧ c.id.length ≤ 1023 ∧ ∃ rest, raw = credBytes (some c) ++ rest ∧
      first (c.cose ++ rest) = some (c.cose, rest) := by
  unfold parseCreds at h
  split at h
  · cases h
  rename_i hlen
  rw [cut_ok (by omega)] at h
  simp only [Res.bind] at h
  rw [cut_ok (by simp; omega)] at h
  simp only [] at h
  have hl2 : ((raw.drop 16).take 2).length = 2 := by simp; omega
  obtain ⟨hb, hlt⟩ := be16_beNat _ hl2
  generalize hsz : beNat ((raw.drop 16).take 2) = sz at h hb
  split at h
  · cases h
  rename_i h1
  split at h
  · cases h
  rename_i h2
  rw [cut_ok (by omega)] at h
  simp only [] at h
  cases hfs : first (List.drop sz (List.drop 2 (List.drop 16 raw))) with
  | none => rw [hfs] at h; cases h
  | some p =>
    obtain ⟨cose, rest⟩ := p
    rw [hfs] at h
    cases h
    have hsplit := hf _ _ _ hfs
    have hidl : (List.take sz (List.drop 2 (List.drop 16 raw))).length = sz := by
      rw [List.length_take]
      omega
    refine ⟨by rw [List.length_take]; omega, by show List.length (List.take _ _) ≤ _; omega, rest, ?_, by rw [← hsplit]; exact hfs⟩
    simp only [credBytes, List.append_assoc]
    rw [hidl, hb, ← hsplit, List.take_append_drop, List.take_append_drop, List.take_append_drop]

/-- C65: whatever is accepted is an encoding of the result, with something after it. `hf` says that
the CBOR library splits its input. -/
theorem parse_exact (first : Bytes → Option (Bytes × Bytes))
    (hf : ∀ s a b, first s = some (a, b) → s = a ++ b) (raw : Bytes) (d : Data)
    (h : parse first raw = .ok d) :
    Valid d ∧ ∃ r1 r5 rest, raw = encode d r1 r5 rest := by
  unfold parse at h
  split at h
  · cases h
  rename_i hlen
  rw [cut_ok (by omega)] at h
  simp only [Res.bind] at h
  have hrp : (raw.take 32).length = 32 := by rw [List.length_take]; omega
  cases hd : raw.drop 32 with
  | nil =>
    have := congrArg List.length hd
    simp at this
    omega
  | cons b t =>
    have hl := congrArg List.length hd
    simp at hl
    have hraw : raw = raw.take 32 ++ b :: t := by rw [← hd, List.take_append_drop]
    rw [hd] at h
    simp only [idx0] at h
    rw [cut_ok (by simp)] at h
    simp only [List.drop_succ_cons, List.drop_zero] at h
    rw [cut_ok (by omega)] at h
    simp only [] at h
    have hc4 : (t.take 4).length = 4 := by rw [List.length_take]; omega
    obtain ⟨hb, hlt⟩ := be32_beNat _ hc4
    have ht : t = be32 (beNat (t.take 4)) ++ t.drop 4 := by rw [hb, List.take_append_drop]
    obtain ⟨r1, r5, hfl⟩ := byte_flags ⟨b.toNat, b.toNat_lt⟩
    simp only [UInt8.ofNat_toNat] at hfl
    split at h
    · rename_i hat
      cases hp : parseCreds first (t.drop 4) with
      | err => rw [hp] at h; cases h
      | panic => rw [hp] at h; cases h
      | ok c =>
        rw [hp] at h
        cases h
        obtain ⟨h1, h2, rest, h3, -⟩ := parseCreds_ok first hf _ _ hp
        refine ⟨⟨hrp, hlt, by simpa using hat, ?_⟩, r1, r5, rest, ?_⟩
        · rintro c' hc'
          cases hc'
          exact ⟨h1, h2⟩
        · unfold encode flags
          simp only []
          rw [← hfl, ← h3, ← ht]
          exact hraw
    · rename_i hat
      cases h
      refine ⟨⟨hrp, hlt, by simpa using hat, ?_⟩, r1, r5, t.drop 4, ?_⟩
      · intro c' hc'
        cases hc'
      · unfold encode flags
        simp only [credBytes, List.nil_append]
        rw [← hfl, ← ht]
        exact hraw

/-! ## Truncation -/

theorem encode_inj {d d' : Data} (hv : Valid d) (hv' : Valid d') {r1 r5 r1' r5' : Bool}
    {x y : Bytes} (h : encode d r1 r5 x = encode d' r1' r5' y) :
    d.rp = d'.rp ∧ d.at' = d'.at' ∧ credBytes d.creds ++ x = credBytes d'.creds ++ y := by
  unfold encode at h
  obtain ⟨h1, h2⟩ := List.append_inj h (by rw [hv.rp, hv'.rp])
  simp only [List.cons.injEq] at h2
  obtain ⟨h2, h3⟩ := h2
  obtain ⟨-, h4⟩ := List.append_inj h3 rfl
  refine ⟨h1, ?_, h4⟩
  obtain ⟨-, -, -, -, f5, -⟩ := flag_bits d.up r1 d.uv d.be d.bs r5 d.at' d.ed
  obtain ⟨-, -, -, -, g5, -⟩ := flag_bits d'.up r1' d'.uv d'.be d'.bs r5' d'.at' d'.ed
  rw [← f5, ← g5]
  unfold flags at h2
  rw [h2]

/-- C65, the part that holds: a proper prefix of the encoding, up to the end of the credentials, is
refused. `hf` and `hp` say that the CBOR library splits its input and that it refuses a proper
prefix of the key. What is missing: truncation inside the extensions. -/
theorem truncated_refused_partial (first : Bytes → Option (Bytes × Bytes))
    (hf : ∀ s a b, first s = some (a, b) → s = a ++ b) (d : Data) (hv : Valid d) (r1 r5 : Bool)
    (hp : ∀ c, d.creds = some c → ∀ a b, c.cose = a ++ b → b ≠ [] → first a = none)
    (p q : Bytes) (hpq : p ++ q = encode d r1 r5 []) (hq : q ≠ []) :
    parse first p = .err := by
  have hnp := parse_no_panic first p
  cases hr : parse first p with
  | err => rfl
  | panic => exact absurd hr hnp
  | ok d' =>
    exfalso
    obtain ⟨hv', r1', r5', rest, he⟩ := parse_exact first hf p d' hr
    have hext : p ++ q = encode d' r1' r5' (rest ++ q) := by
      rw [he]
      unfold encode
      simp only [List.append_assoc, List.cons_append]
    rw [hpq] at hext
    obtain ⟨-, hat, hcb⟩ := encode_inj hv hv' hext
    rw [List.append_nil] at hcb
    rw [hv.creds, hv'.creds] at hat
    cases hc : d.creds with
    | none =>
      rw [hc] at hat hcb
      cases hc' : d'.creds with
      | some c' => rw [hc'] at hat; cases hat
      | none =>
        rw [hc'] at hcb
        simp only [credBytes, List.nil_append] at hcb
        exact hq (List.append_eq_nil_iff.1 hcb.symm).2
    | some c =>
      rw [hc] at hat hcb
      cases hc' : d'.creds with
      | none => rw [hc'] at hat; cases hat
      | some c' =>
        rw [hc'] at hcb
        obtain ⟨ha, hi⟩ := hv.aaguid c hc
        obtain ⟨ha', hi'⟩ := hv'.aaguid c' hc'
        simp only [credBytes, List.append_assoc] at hcb
        obtain ⟨-, h2⟩ := List.append_inj hcb (by rw [ha, ha'])
        obtain ⟨h3, h4⟩ := List.append_inj h2 rfl
        have hlen : c.id.length = c'.id.length := by
          rw [← beNat_be16 c.id.length (by omega), h3, beNat_be16 _ (by omega)]
        obtain ⟨-, h5⟩ := List.append_inj h4 hlen
        -- the parser called the CBOR library on a proper prefix of the key
        have hfirst : ∃ x, first (c'.cose ++ rest) = some x := by
          unfold parse at hr
          have hpl : ¬ p.length < 37 := by
            intro hx
            rw [if_pos hx] at hr
            cases hr
          rw [if_neg hpl] at hr
          rw [he] at hr
          unfold encode at hr
          rw [cut_append hv'.rp] at hr
          simp only [Res.bind, idx0] at hr
          rw [cut_ok (by simp)] at hr
          simp only [List.drop_succ_cons, List.drop_zero] at hr
          rw [cut_append (show (be32 d'.count).length = 4 from rfl)] at hr
          obtain ⟨-, -, -, -, f5, -⟩ := flag_bits d'.up r1' d'.uv d'.be d'.bs r5' d'.at' d'.ed
          unfold flags at hr
          simp only [f5] at hr
          rw [hv'.creds, hc'] at hr
          simp only [Option.isSome, if_true] at hr
          cases hpc : parseCreds first (credBytes (some c') ++ rest) with
          | err => rw [hpc] at hr; cases hr
          | panic => rw [hpc] at hr; cases hr
          | ok c2 =>
            obtain ⟨k1, k2, rest2, k3, k4⟩ := parseCreds_ok first hf _ _ hpc
            simp only [credBytes, List.append_assoc] at k3
            obtain ⟨-, k5⟩ := List.append_inj k3 (by rw [ha', k1])
            obtain ⟨k6, k7⟩ := List.append_inj k5 rfl
            have hlen2 : c'.id.length = c2.id.length := by
              rw [← beNat_be16 c'.id.length (by omega), k6, beNat_be16 _ (by omega)]
            obtain ⟨-, k8⟩ := List.append_inj k7 hlen2
            exact ⟨_, by rw [k8]; exact k4⟩
        obtain ⟨x, hx⟩ := hfirst
        rw [hp c hc (c'.cose ++ rest) q (by rw [h5, List.append_assoc]) hq] at hx
        cases hx

namespace Ex

/-- A toy CBOR library: one byte `n < 24` is an item of one byte. -/
def first : Bytes → Option (Bytes × Bytes)
  | [] => none
  | b :: t => if b.toNat < 24 then some ([b], t) else none

def d : Data :=
  ⟨List.replicate 32 3, true, true, false, false, true, true, 70000, some ⟨List.replicate 16 0, [1, 2], [5]⟩⟩

theorem valid : Valid d where
  rp := by decide
  count := by decide
  creds := rfl
  aaguid := by
    intro c hc
    cases hc
    decide

example : parse first (encode d false true [0xa0]) = .ok d :=
  parse_encode first d valid false true [0xa0] (by intro c hc; cases hc; rfl)

example : parse first ((encode d false true []).take 57) = .err := by decide +kernel

end Ex

/-- C65 is violated for extensions: data that announces extensions and has none, or that has
garbage at the end, is accepted. -/
theorem truncated_extension_violated :
    ∃ (first : Bytes → Option (Bytes × Bytes)) (d : Data),
      (∀ s a b, first s = some (a, b) → s = a ++ b) ∧ Valid d ∧ d.ed = true ∧
      parse first (encode d false false []) = .ok d ∧
      parse first (encode d false false [0xff]) = .ok d := by
  refine ⟨Ex.first, Ex.d, ?_, Ex.valid, rfl, by decide +kernel, by decide +kernel⟩
  intro s a b h
  cases s with
  | nil => cases h
  | cons x t =>
    have h : (if x.toNat < 24 then some ([x], t) else none) = some (a, b) := h
    by_cases hx : x.toNat < 24
    · rw [if_pos hx] at h
      cases h
      rfl
    · rw [if_neg hx] at h
      cases h

end Verif.Authdata
