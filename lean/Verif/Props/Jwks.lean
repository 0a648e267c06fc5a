import Verif.Model.Jwks
import Verif.Props.OcspHttp
/-
C108: published signing keys.
-/
namespace Verif.Jwks

/-! ## Specification: RFC 7517, RFC 7518, RFC 8037 -/

/-- The number written by some bytes, most significant first. -/
def Spec.value (l : List Nat) : Nat := l.foldl (fun a b => 256 * a + b) 0

/-- `s` is the base64url form, without padding, of the bytes `l`. -/
def Spec.Base64url (s : Str) (l : List Nat) : Prop :=
  OcspHttp.Spec.Bytes l ∧ s = OcspHttp.Spec.base64 true false l

/-- Base64urlUInt (RFC 7518, section 2): the shortest bytes of a number, one zero byte for zero. -/
def Spec.UInt (s : Str) (n : Nat) : Prop :=
  ∃ l, Spec.Base64url s l ∧ Spec.value l = n ∧ l ≠ [] ∧ (l.head? = some 0 → l = [0])

/-- A coordinate (RFC 7518, section 6.2.1.2): "the length of this octet string must be the full size
of a coordinate for the curve", 32 bytes for P-256. -/
def Spec.Coordinate (s : Str) (n : Nat) : Prop :=
  ∃ l, Spec.Base64url s l ∧ Spec.value l = n ∧ l.length = 32

/-- A coordinate as read by someone who does not mind its length. -/
def Spec.LaxCoordinate (s : Str) (n : Nat) : Prop := ∃ l, Spec.Base64url s l ∧ Spec.value l = n

/-- An entry of the set says that the key called `id` is `p`, read with `coord` for coordinates. -/
inductive Spec.Says (coord : Str → Nat → Prop) (j : Jwk) (id : Str) : Pub → Prop
  | ec {x y} : j.kty = "EC".toList → j.crv = "P-256".toList → j.alg = "ES256".toList → j.use = "sig".toList →
      j.kid = id → coord j.x x → coord j.y y → Says coord j id (.ec x y)
  | ed {raw} : j.kty = "OKP".toList → j.crv = "Ed25519".toList → j.alg = "EdDSA".toList →
      j.use = "sig".toList → j.kid = id → Spec.Base64url j.x raw → Says coord j id (.ed raw)
  | rsa {n e} : j.kty = "RSA".toList → j.alg = "RS256".toList → j.use = "sig".toList → j.kid = id →
      Spec.UInt j.n n → Spec.UInt j.e e → Says coord j id (.rsa n e)

/-- The elements of two lists are related one by one. -/
inductive Spec.Each {α β} (R : α → β → Prop) : List α → List β → Prop
  | nil : Each R [] []
  | cons {a b l l'} : R a b → Each R l l' → Each R (a :: l) (b :: l')

/-- A key as the library makes them. -/
def Spec.Valid : Pub → Prop
  | .ec x y => x < 2 ^ 256 ∧ y < 2 ^ 256
  | .ed raw => OcspHttp.Spec.Bytes raw
  | .rsa n e => 0 < n ∧ 0 < e
  | .other => False

/-! ## Lemmas -/

theorem foldl_append_one (l : List Nat) (b : Nat) : Spec.value (l ++ [b]) = 256 * Spec.value l + b := by
  unfold Spec.value
  rw [List.foldl_append]
  rfl

theorem bigBytes_pos {n : Nat} (h : n ≠ 0) : bigBytes n = bigBytes (n / 256) ++ [n % 256] := by
  rw [bigBytes, dif_neg h]

theorem bigBytes_zero : bigBytes 0 = [] := by rw [bigBytes, dif_pos rfl]

theorem bigBytes_spec (n : Nat) : OcspHttp.Spec.Bytes (bigBytes n) ∧ Spec.value (bigBytes n) = n ∧
    (bigBytes n).head? ≠ some 0 ∧ (n ≠ 0 → bigBytes n ≠ []) ∧
    ∀ k, (bigBytes n).length ≤ k ↔ n < 256 ^ k := by
  induction n using Nat.strongRecOn with
  | ind n ih =>
    by_cases h : n = 0
    · subst h
      rw [bigBytes_zero]
      refine ⟨(by intro b hb; cases hb), rfl, by simp, by simp, ?_⟩
      intro k
      simp [Nat.pow_pos]
    · rw [bigBytes_pos h]
      obtain ⟨h1, h2, h3, h4, h5⟩ := ih (n / 256) (by omega)
      refine ⟨?_, ?_, ?_, by simp, ?_⟩
      · intro b hb
        rcases List.mem_append.mp hb with hb | hb
        · exact h1 b hb
        · simp at hb; omega
      · rw [foldl_append_one, h2]; omega
      · by_cases h0 : n / 256 = 0
        · rw [h0, bigBytes_zero]
          simp only [List.nil_append, List.head?_cons, ne_eq, Option.some.injEq]
          omega
        · rw [List.head?_append]
          cases hh : (bigBytes (n / 256)).head? with
          | none => rw [List.head?_eq_none_iff] at hh; exact absurd hh (h4 h0)
          | some a => rw [hh] at h3; simpa using h3
      · intro k
        rw [List.length_append, List.length_singleton]
        cases k with
        | zero => simp; omega
        | succ k =>
          rw [Nat.add_le_add_iff_right, h5 k, Nat.pow_succ]
          omega

theorem digit_fin : ∀ n : Fin 64, digit n = OcspHttp.Spec.letter true n := by decide +kernel

theorem digit_eq {a b : Nat} (h : a % 64 = b) : digit a = OcspHttp.Spec.letter true b := by
  have hb : b < 64 := by omega
  have := digit_fin ⟨b, hb⟩
  dsimp only at this
  rw [← this]
  unfold digit
  rw [h, Nat.mod_eq_of_lt hb]

theorem encode_eq (l : List Nat) (h : OcspHttp.Spec.Bytes l) : Spec.Base64url (encode l) l := by
  refine ⟨h, ?_⟩
  unfold OcspHttp.Spec.base64
  rw [if_neg (by simp), List.append_nil]
  induction l using encode.induct with
  | case1 => rfl
  | case2 a =>
    have := h a (by simp)
    simp only [encode, OcspHttp.Spec.sextets, List.map_cons, List.map_nil]
    rw [digit_eq (a := a * 65536 / 262144) (b := a / 4) (by omega),
      digit_eq (a := a * 65536 / 4096) (b := a % 4 * 16) (by omega)]
  | case3 a b =>
    have := h a (by simp)
    have := h b (by simp)
    simp only [encode, OcspHttp.Spec.sextets, List.map_cons, List.map_nil]
    rw [digit_eq (a := (a * 65536 + b * 256) / 262144) (b := a / 4) (by omega),
      digit_eq (a := (a * 65536 + b * 256) / 4096) (b := a % 4 * 16 + b / 16) (by omega),
      digit_eq (a := (a * 65536 + b * 256) / 64) (b := b % 16 * 4) (by omega)]
  | case4 a b c t ih =>
    have := h a (by simp)
    have := h b (by simp)
    have := h c (by simp)
    simp only [encode, OcspHttp.Spec.sextets, List.map_cons, List.cons_append, List.nil_append]
    rw [digit_eq (a := (a * 65536 + b * 256 + c) / 262144) (b := a / 4) (by omega),
      digit_eq (a := (a * 65536 + b * 256 + c) / 4096) (b := a % 4 * 16 + b / 16) (by omega),
      digit_eq (a := (a * 65536 + b * 256 + c) / 64) (b := b % 16 * 4 + c / 64) (by omega),
      digit_eq (a := a * 65536 + b * 256 + c) (b := c % 64) (by omega),
      ih (fun b hb => h b (by simp [hb]))]

/-- Base64url text determines the bytes. -/
theorem base64url_inj {s : Str} {l l' : List Nat} (h : Spec.Base64url s l) (h' : Spec.Base64url s l') : l = l' := by
  have h1 := OcspHttp.ocsp_get_url [] false l h.1 "" []
  have h2 := OcspHttp.ocsp_get_url [] false l' h'.1 "" []
  rw [← h.2] at h1
  rw [← h'.2] at h2
  rw [h1] at h2
  injection h2

theorem uint_big {n : Nat} (h : 0 < n) : Spec.UInt (encode (bigBytes n)) n := by
  obtain ⟨h1, h2, h3, h4, -⟩ := bigBytes_spec n
  exact ⟨_, encode_eq _ h1, h2, h4 (by omega), fun hh => absurd hh h3⟩

theorem lax_big (n : Nat) : Spec.LaxCoordinate (encode (bigBytes n)) n :=
  ⟨_, encode_eq _ (bigBytes_spec n).1, (bigBytes_spec n).2.1⟩

theorem coord_big {n : Nat} (h : n < 2 ^ 256) : Spec.Coordinate (encode (bigBytes n)) n ↔ 2 ^ 248 ≤ n := by
  obtain ⟨h1, h2, -, -, h5⟩ := bigBytes_spec n
  have a := h5 32
  have b := h5 31
  rw [show 256 ^ 32 = 2 ^ 256 by decide +kernel] at a
  rw [show 256 ^ 31 = 2 ^ 248 by decide +kernel] at b
  constructor
  · rintro ⟨l, hl, -, h6⟩
    have := base64url_inj hl (encode_eq _ h1)
    subst this
    apply Nat.le_of_not_lt
    intro h7
    have := b.mpr h7
    omega
  · intro h6
    refine ⟨_, encode_eq _ h1, h2, ?_⟩
    have h7 := a.mpr h
    have h8 : ¬ (bigBytes n).length ≤ 31 := fun h9 => absurd (b.mp h9) (Nat.not_lt.mpr h6)
    omega

/-! ## C108 -/

/-- C108. The published set has one entry for each signing key, in the same order, and every entry
says what its key is: exactly for RSA and Ed25519 keys, and for EC keys to readers that do not mind
the length of the coordinates. -/
theorem jwks_lax (keys : List Key) (h : ∀ k ∈ keys, Spec.Valid k.pub) :
    Spec.Each (fun j k => Spec.Says Spec.LaxCoordinate j k.id k.pub) (serveJWKS keys) keys := by
  induction keys with
  | nil => exact .nil
  | cons k t ih =>
    have hv := h k (by simp)
    have ih := ih (fun k hk => h k (by simp [hk]))
    unfold serveJWKS at ih ⊢
    obtain ⟨id, pub⟩ := k
    cases pub with
    | ec x y =>
      rw [List.filterMap_cons_some (by rfl)]
      exact .cons (.ec rfl rfl rfl rfl rfl (lax_big x) (lax_big y)) ih
    | ed raw =>
      rw [List.filterMap_cons_some (by rfl)]
      exact .cons (.ed rfl rfl rfl rfl rfl (encode_eq raw hv)) ih
    | rsa n e =>
      rw [List.filterMap_cons_some (by rfl)]
      exact .cons (.rsa rfl rfl rfl rfl (uint_big hv.1) (uint_big hv.2)) ih
    | other => exact hv.elim

/-- C108. Every entry says what its key is as the RFCs want it. Missing: EC keys with a coordinate
below 2^248 (1 in 128 keys). -/
theorem jwks_partial (keys : List Key) (h : ∀ k ∈ keys, Spec.Valid k.pub)
    (hc : ∀ k ∈ keys, ∀ x y, k.pub = .ec x y → 2 ^ 248 ≤ x ∧ 2 ^ 248 ≤ y) :
    Spec.Each (fun j k => Spec.Says Spec.Coordinate j k.id k.pub) (serveJWKS keys) keys := by
  induction keys with
  | nil => exact .nil
  | cons k t ih =>
    have hv := h k (by simp)
    have hk := hc k (by simp)
    have ih := ih (fun k hk => h k (by simp [hk])) (fun k hk => hc k (by simp [hk]))
    unfold serveJWKS at ih ⊢
    obtain ⟨id, pub⟩ := k
    cases pub with
    | ec x y =>
      rw [List.filterMap_cons_some (by rfl)]
      have := hk x y rfl
      exact .cons (.ec rfl rfl rfl rfl rfl ((coord_big hv.1).mpr this.1) ((coord_big hv.2).mpr this.2)) ih
    | ed raw =>
      rw [List.filterMap_cons_some (by rfl)]
      exact .cons (.ed rfl rfl rfl rfl rfl (encode_eq raw hv)) ih
    | rsa n e =>
      rw [List.filterMap_cons_some (by rfl)]
      exact .cons (.rsa rfl rfl rfl rfl (uint_big hv.1) (uint_big hv.2)) ih
    | other => exact hv.elim

/-- Readers cannot take an entry for two different keys. -/
theorem says_unique {j : Jwk} {id : Str} {p p' : Pub} (h : Spec.Says Spec.LaxCoordinate j id p)
    (h' : Spec.Says Spec.LaxCoordinate j id p') : p = p' := by
  have lax : ∀ {s n n'}, Spec.LaxCoordinate s n → Spec.LaxCoordinate s n' → n = n' := by
    rintro s n n' ⟨l, h1, rfl⟩ ⟨l', h2, rfl⟩
    rw [base64url_inj h1 h2]
  have uint : ∀ {s n n'}, Spec.UInt s n → Spec.UInt s n' → n = n' := by
    rintro s n n' ⟨l, h1, rfl, -⟩ ⟨l', h2, rfl, -⟩
    rw [base64url_inj h1 h2]
  cases h with
  | ec a _ _ _ _ hx hy =>
    cases h' with
    | ec _ _ _ _ _ hx' hy' => rw [lax hx hx', lax hy hy']
    | ed b => rw [a] at b; exact absurd b (by decide)
    | rsa b => rw [a] at b; exact absurd b (by decide)
  | ed a _ _ _ _ hx =>
    cases h' with
    | ec b => rw [a] at b; exact absurd b (by decide)
    | ed _ _ _ _ _ hx' => rw [base64url_inj hx hx']
    | rsa b => rw [a] at b; exact absurd b (by decide)
  | rsa a _ _ _ hn he =>
    cases h' with
    | ec b => rw [a] at b; exact absurd b (by decide)
    | ed b => rw [a] at b; exact absurd b (by decide)
    | rsa _ _ _ _ hn' he' => rw [uint hn hn', uint he he']

/-- The prime and the constant of P-256. -/
def Spec.p256 : Nat := 2 ^ 256 - 2 ^ 224 + 2 ^ 192 + 2 ^ 96 - 1
def Spec.b256 : Nat := 0x5ac635d8aa3a93e7b3ebbd55769886bc651d06b0cc53b0f63bce3c3e27d2604b

/-- `(x, y)` is a point of P-256. -/
def Spec.OnCurve (x y : Nat) : Prop :=
  x < Spec.p256 ∧ y < Spec.p256 ∧ (y * y + 3 * x) % Spec.p256 = (x * x * x + Spec.b256) % Spec.p256

/-- A key that satisfies the hypotheses of `jwks_partial`. -/
example : Spec.OnCurve
      57896044618658097711785492504343953926634992332820282019728792003956564819972
      19860193469771140394114714117317832839702797708709560844288844688759799878798 ∧
    2 ^ 248 ≤ 57896044618658097711785492504343953926634992332820282019728792003956564819972 ∧
    2 ^ 248 ≤ 19860193469771140394114714117317832839702797708709560844288844688759799878798 := by
  unfold Spec.OnCurve
  decide +kernel

example : serveJWKS [⟨"k1".toList, .rsa 3233 65537⟩, ⟨"k2".toList, .ed [1, 2, 255]⟩] =
    [{ kty := "RSA".toList, use := "sig".toList, kid := "k1".toList, alg := "RS256".toList,
       n := "DKE".toList, e := "AQAB".toList },
     { kty := "OKP".toList, use := "sig".toList, kid := "k2".toList, alg := "EdDSA".toList,
       crv := "Ed25519".toList, x := "AQL_".toList }] := by
  have h1 : bigBytes 3233 = [12, 161] := by
    rw [bigBytes_pos (by decide), bigBytes_pos (by decide)]; simp [bigBytes_zero]
  have h2 : bigBytes 65537 = [1, 0, 1] := by
    rw [bigBytes_pos (by decide), bigBytes_pos (by decide), bigBytes_pos (by decide)]; simp [bigBytes_zero]
  unfold serveJWKS
  rw [List.filterMap_cons_some (by rfl), List.filterMap_cons_some (by rfl), List.filterMap_nil, h1, h2]
  decide +kernel

/-- C108, violated: a key of the curve whose entry is not a valid one. -/
theorem jwks_violated : ∃ k x y, k.pub = .ec x y ∧ Spec.OnCurve x y ∧
    ∀ j ∈ serveJWKS [k], ¬ Spec.Says Spec.Coordinate j k.id k.pub := by
  refine ⟨⟨"k".toList, .ec 5
    31468013646237722594854082025316614106172411895747863909393730389177298123724⟩, 5, _, rfl, ?_, ?_⟩
  · unfold Spec.OnCurve
    decide +kernel
  · intro j hj hs
    unfold serveJWKS at hj
    rw [List.filterMap_cons_some (by rfl), List.filterMap_nil, List.mem_singleton] at hj
    subst hj
    cases hs with
    | ec _ _ _ _ _ hx _ =>
      have := (coord_big (n := 5) (by decide +kernel)).mp hx
      exact absurd this (by decide +kernel)

end Verif.Jwks
