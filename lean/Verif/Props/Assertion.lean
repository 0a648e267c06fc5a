import Verif.Model.Assertion
import Verif.Props.Authdata
/-!
# C161: a registered passkey can be used, and only with signatures of its own key
-/
namespace Verif.Assertion

namespace Spec

/-- What a public key is. -/
inductive PubKey where
  | ec (x y : Nat)
  | rsa (n e : Nat)
deriving DecidableEq, Repr

/-- The number that bytes stand for, the first one is the highest. -/
def value : Bytes → Nat
  | [] => 0
  | b :: bs => b.toNat * 256 ^ bs.length + value bs

/-- How public keys are written for authenticators: RFC 9053 section 7.1.1 for ES256 with P-256, RFC 8230 section 4 for
RS256. Both parts of an RSA key are byte strings. -/
def Is (c : Map) : PubKey → Prop
  | .ec x y => ∃ a b, c 1 = some (.int 2) ∧ c 3 = some (.int (-7)) ∧ c (-1) = some (.int 1) ∧
      c (-2) = some (.bytes a) ∧ c (-3) = some (.bytes b) ∧ a.length = 32 ∧ b.length = 32 ∧ value a = x ∧ value b = y
  | .rsa n e => ∃ a b, c 1 = some (.int 3) ∧ c 3 = some (.int (-257)) ∧ c (-1) = some (.bytes a) ∧
      c (-2) = some (.bytes b) ∧ value a = n ∧ value b = e

/-- The algorithm of a key (WebAuthn section 5.8.5). -/
def alg : PubKey → Int
  | .ec _ _ => -7
  | .rsa _ _ => -257

/-- What an authenticator signs (WebAuthn section 6.3.3): the authenticator data and the hash of the client data. -/
def message (lib : Lib) (authData client : Bytes) : Bytes := authData ++ lib.sha256 client

/-- The signature is one of this key for the message. -/
def Verifies (lib : Lib) (k : PubKey) (m sig : Bytes) : Prop :=
  match k with
  | .ec x y => lib.onCurve x y = true ∧ lib.ecdsa x y (lib.sha256 m) sig = true
  | .rsa n e => lib.rsa n e (lib.sha256 m) sig = true

/-- A number at a label; left out it is 0. -/
def IntAt (c : Map) (l i : Int) : Prop :=
  (c l = some (.int i) ∧ -9223372036854775808 ≤ i ∧ i ≤ 9223372036854775807) ∨
    (i = 0 ∧ (c l = none ∨ c l = some .null))

/-- Bytes at a label. -/
def BytesAt (c : Map) (l : Int) (b : Bytes) : Prop :=
  c l = some (.bytes b) ∨ c l = some (.list b) ∨ (b = [] ∧ (c l = none ∨ c l = some .null))

/-- The client and the authenticator say that the user was there, and was verified, and for which host. -/
def Present (lib : Lib) (authData rp : Bytes) : Prop :=
  ∃ d, Authdata.parse lib.first authData = .ok d ∧ d.up = true ∧ d.uv = true ∧ d.rp = rp

end Spec

theorem beNat_append (a : Bytes) : ∀ n, a.foldl (fun n b => n * 256 + b.toNat) n = n * 256 ^ a.length + Spec.value a := by
  induction a with
  | nil => intro n; simp [Spec.value]
  | cons b bs ih =>
    intro n
    rw [List.foldl_cons, ih, Spec.value, List.length_cons, Nat.pow_succ, Nat.add_mul]
    rw [Nat.mul_assoc, Nat.mul_comm 256, Nat.add_assoc]

theorem beNat_value (a : Bytes) : Authdata.beNat a = Spec.value a := by
  unfold Authdata.beNat
  rw [beNat_append]
  simp

theorem intField_iff (c : Map) (l i : Int) : intField c l = some i ↔ Spec.IntAt c l i := by
  unfold intField Spec.IntAt
  rcases h : c l with _ | (j | _ | _ | _ | _)
  · simp [eq_comm]
  · simp only [Option.some.injEq, Item.int.injEq, reduceCtorEq, or_self, and_false, or_false]
    split
    · rename_i hj
      constructor
      · intro h; cases h; exact ⟨rfl, hj⟩
      · rintro ⟨rfl, -⟩; rfl
    · rename_i hj
      constructor
      · intro h; cases h
      · rintro ⟨rfl, h⟩; exact absurd h hj
  · simp
  · simp
  · simp [eq_comm]
  · simp

theorem bytesField_iff (c : Map) (l : Int) (b : Bytes) : bytesField c l = some b ↔ Spec.BytesAt c l b := by
  unfold bytesField Spec.BytesAt
  rcases h : c l with _ | (j | _ | _ | _ | _) <;> simp [eq_comm]

/-- C161. What is accepted, exactly: a signature of the key that is registered, over the authenticator data and the hash
of the client data, with the one algorithm of its key type. Keys may be written in other ways than the standards say
(coordinates of any length, arrays for byte strings); but in RSA keys, the exponent has to be a number. -/
theorem accepted_iff (lib : Lib) (key authData client sig : Bytes) :
    verifySignature lib key authData client sig = true ↔ ∃ c, lib.cbor key = some c ∧
      ((∃ a b, Spec.IntAt c 1 2 ∧ Spec.IntAt c 3 (-7) ∧ Spec.IntAt c (-1) 1 ∧ Spec.BytesAt c (-2) a ∧
          Spec.BytesAt c (-3) b ∧ Spec.Verifies lib (.ec (Spec.value a) (Spec.value b)) (Spec.message lib authData client) sig) ∨
       (∃ a e, Spec.IntAt c 1 3 ∧ Spec.IntAt c 3 (-257) ∧ Spec.BytesAt c (-1) a ∧ Spec.IntAt c (-2) e ∧
          lib.rsa (Spec.value a) e (lib.sha256 (Spec.message lib authData client)) sig = true)) := by
  unfold verifySignature
  dsimp only
  cases hc : lib.cbor key with
  | none => simp
  | some c =>
    simp only [Option.some.injEq, exists_eq_left', ← intField_iff, ← bytesField_iff, ← beNat_value]
    show _ ↔ (∃ a b, _ ∧ _ ∧ _ ∧ _ ∧ _ ∧ lib.onCurve _ _ = true ∧
      lib.ecdsa _ _ (lib.sha256 (signedBytes lib authData client)) sig = true) ∨ (∃ a e, _ ∧ _ ∧ _ ∧ _ ∧
      lib.rsa _ e (lib.sha256 (signedBytes lib authData client)) sig = true)
    cases h1 : intField c 1 with
    | none => simp
    | some kty =>
      dsimp only
      by_cases h2 : kty = 2
      · subst h2
        rw [if_pos rfl]
        unfold verifyEC
        rw [h1]
        cases h3 : intField c 3 <;> cases h4 : intField c (-1) <;> cases h5 : bytesField c (-2) <;>
          cases h6 : bytesField c (-3) <;> simp
      · rw [if_neg h2]
        by_cases h3 : kty = 3
        · subst h3
          rw [if_pos rfl]
          unfold verifyRSA
          rw [h1]
          cases h4 : intField c 3 <;> cases h5 : bytesField c (-1) <;> cases h6 : intField c (-2) <;> simp
        · rw [if_neg h3]
          simp [h2, h3]

/-- C161 (partial). A signature is accepted for an EC key exactly if it is one of this key for what was shown. Missing:
RSA keys. -/
theorem ec_partial (lib : Lib) (key authData client sig : Bytes) (c : Map) (hc : lib.cbor key = some c) (x y : Nat)
    (h : Spec.Is c (.ec x y)) :
    verifySignature lib key authData client sig = true ↔
      Spec.Verifies lib (.ec x y) (Spec.message lib authData client) sig := by
  obtain ⟨a, b, h1, h2, h3, h4, h5, -, -, rfl, rfl⟩ := h
  rw [accepted_iff]
  constructor
  · rintro ⟨c', hc', h⟩
    cases hc.symm.trans hc'
    rcases h with ⟨a', b', g1, -, -, g4, g5, g6⟩ | ⟨a', e, g1, -⟩
    · simp [Spec.BytesAt, h4] at g4
      simp [Spec.BytesAt, h5] at g5
      rw [g4, g5]
      exact g6
    · simp [Spec.IntAt, h1] at g1
  · intro h
    refine ⟨c, hc, .inl ⟨a, b, ?_, ?_, ?_, .inl h4, .inl h5, h⟩⟩
    · exact .inl ⟨h1, by decide, by decide⟩
    · exact .inl ⟨h2, by decide, by decide⟩
    · exact .inl ⟨h3, by decide, by decide⟩

/-- C161, violated: no signature is ever accepted for an RSA key, because the exponent is a byte string (RFC 8230) and the
code reads a number. -/
theorem rsa_violated (lib : Lib) (key authData client sig : Bytes) (c : Map) (hc : lib.cbor key = some c) (n e : Nat)
    (h : Spec.Is c (.rsa n e)) : verifySignature lib key authData client sig = false := by
  obtain ⟨a, b, h1, h2, h3, h4, -, -⟩ := h
  rw [← Bool.not_eq_true, accepted_iff]
  rintro ⟨c', hc', h⟩
  cases hc.symm.trans hc'
  rcases h with ⟨_, _, g1, -⟩ | ⟨_, _, -, -, -, g4, -⟩
  · simp [Spec.IntAt, h1] at g1
  · simp [Spec.IntAt, h4] at g4

/-- C161. Nothing is accepted but signatures with the algorithms that were offered, and the key says so itself. -/
theorem algorithm (lib : Lib) (key authData client sig : Bytes) (h : verifySignature lib key authData client sig = true) :
    ∃ c alg, lib.cbor key = some c ∧ c 3 = some (.int alg) ∧ alg ∈ offered := by
  rw [accepted_iff] at h
  obtain ⟨c, hc, ⟨_, _, -, g, -⟩ | ⟨_, _, -, g, -⟩⟩ := h
  · rcases g with ⟨g, -⟩ | ⟨g, -⟩
    · exact ⟨c, -7, hc, g, by decide⟩
    · cases g
  · rcases g with ⟨g, -⟩ | ⟨g, -⟩
    · exact ⟨c, -257, hc, g, by decide⟩
    · cases g

/-- C161. A signature stands for one pair of authenticator data and client data only: two pairs that are signed alike are
the same, unless somebody has found a collision of SHA-256. -/
theorem bound (lib : Lib) (hlen : ∀ b, (lib.sha256 b).length = 32) (a c a' c' : Bytes)
    (h : lib.sha256 (signedBytes lib a c) = lib.sha256 (signedBytes lib a' c')) :
    (a = a' ∧ c = c') ∨ ∃ u v, u ≠ v ∧ lib.sha256 u = lib.sha256 v := by
  by_cases h1 : signedBytes lib a c = signedBytes lib a' c'
  · have h2 : a = a' ∧ lib.sha256 c = lib.sha256 c' := List.append_inj' h1 (by rw [hlen, hlen])
    by_cases h3 : c = c'
    · exact .inl ⟨h2.1, h3⟩
    · exact .inr ⟨c, c', h3, h2.2⟩
  · exact .inr ⟨_, _, h1, h⟩

/-- What registering does, in terms of the authenticator data. -/
theorem register_iff (lib : Lib) (hash authData : Bytes) (ks ks' : List UserKey) :
    register lib hash authData ks = some ks' ↔ ∃ d c, Authdata.parse lib.first authData = .ok d ∧ d.rp = hash ∧
      d.up = true ∧ d.uv = true ∧ d.creds = some c ∧ ks' = ks ++ [⟨c.id, c.cose, hash⟩] := by
  unfold register
  rcases h : Authdata.parse lib.first authData with d | _ | _
  · dsimp only
    by_cases h1 : d.rp = hash
    · rw [if_neg (not_not_intro h1)]
      cases h2 : d.up
      · simp [h2]
      · cases h3 : d.uv
        · simp [h3]
        · cases h4 : d.creds
          · simp [h4]
          · simp only [Bool.not_true, Bool.false_eq_true, if_false]
            constructor
            · intro h; cases h; exact ⟨d, _, rfl, h1, h2, h3, h4, by rw [h1]⟩
            · rintro ⟨d', c, g1, g2, g3, g4, g5, rfl⟩
              cases g1
              cases h4.symm.trans g5
              rw [g2]
    · rw [if_pos h1]
      constructor
      · intro h; cases h
      · rintro ⟨d', c, g1, g2, -⟩
        cases g1
        exact absurd g2 h1
  · simp
  · simp

/-- C161. A login is accepted exactly if the user has registered the key, was there and verified, for the host that the
key was registered for, and the signature is accepted for the first key with this identifier. -/
theorem login_iff (lib : Lib) (ks : List UserKey) (kid authData client sig : Bytes) (k : UserKey) :
    login lib ks kid authData client sig = some k ↔
      ks.find? (fun k => k.id == kid) = some k ∧ Spec.Present lib authData k.rpIdHash ∧
      verifySignature lib k.publicKey authData client sig = true := by
  unfold login Spec.Present
  rcases h : Authdata.parse lib.first authData with d | _ | _
  · dsimp only
    cases h2 : d.up
    · simp [h2]
    · cases h3 : d.uv
      · simp [h3]
      · simp only [Bool.not_true, Bool.false_eq_true, if_false]
        cases h4 : ks.find? (fun k => k.id == kid) with
        | none => simp
        | some k' =>
          dsimp only
          by_cases h5 : d.rp = k'.rpIdHash
          · rw [if_neg (not_not_intro h5)]
            cases h6 : verifySignature lib k'.publicKey authData client sig
            · simp only [Bool.false_eq_true, if_false, reduceCtorEq, false_iff]
              rintro ⟨g, -, g'⟩
              cases g
              rw [h6] at g'; cases g'
            · simp only [if_true]
              constructor
              · intro g; cases g; exact ⟨rfl, ⟨d, rfl, h2, h3, h5⟩, h6⟩
              · rintro ⟨g, -⟩; exact g
          · rw [if_pos h5]
            constructor
            · intro g; cases g
            · rintro ⟨g, ⟨d', g1, -, -, g2⟩, -⟩
              cases g; cases g1
              exact absurd g2 h5
  · simp
  · simp

/-- C161 (partial). A user who has registered an EC key, with an identifier that they had not used before, can log in with
its signatures from then on, and with no others under its identifier. -/
theorem usable_partial (lib : Lib) (hash reg : Bytes) (ks ks' : List UserKey)
    (hr : register lib hash reg ks = some ks') (d : Authdata.Data) (cr : Authdata.Creds)
    (hd : Authdata.parse lib.first reg = .ok d) (hcr : d.creds = some cr) (hnew : ∀ k ∈ ks, k.id ≠ cr.id)
    (c : Map) (hc : lib.cbor cr.cose = some c) (x y : Nat) (hk : Spec.Is c (.ec x y)) (authData client sig : Bytes) :
    (login lib ks' cr.id authData client sig).isSome = true ↔
      Spec.Present lib authData hash ∧ Spec.Verifies lib (.ec x y) (Spec.message lib authData client) sig := by
  obtain ⟨d', cr', g1, g2, -, -, g5, rfl⟩ := (register_iff ..).1 hr
  cases hd.symm.trans g1
  cases hcr.symm.trans g5
  have hf : (ks ++ [(⟨cr.id, cr.cose, hash⟩ : UserKey)]).find? (fun k => k.id == cr.id) = some ⟨cr.id, cr.cose, hash⟩ := by
    rw [List.find?_append, List.find?_eq_none.2 (by intro k hk; simpa using hnew k hk)]
    simp
  rw [Option.isSome_iff_exists]
  constructor
  · rintro ⟨k, hl⟩
    rw [login_iff, hf] at hl
    obtain ⟨h1, h2, h3⟩ := hl
    cases h1
    exact ⟨h2, (ec_partial lib _ _ _ _ c hc x y hk).1 h3⟩
  · rintro ⟨h1, h2⟩
    exact ⟨_, (login_iff ..).2 ⟨hf, h1, (ec_partial lib _ _ _ _ c hc x y hk).2 h2⟩⟩

/-- C161, violated: an RSA key, which authenticators may choose, is registered like any other, and can never be used. -/
theorem usable_violated (lib : Lib) (hash reg : Bytes) (ks : List UserKey) (hreg : Spec.Present lib reg hash)
    (d : Authdata.Data) (cr : Authdata.Creds)
    (hd : Authdata.parse lib.first reg = .ok d) (hcr : d.creds = some cr) (hnew : ∀ k ∈ ks, k.id ≠ cr.id)
    (c : Map) (hc : lib.cbor cr.cose = some c) (n e : Nat) (hk : Spec.Is c (.rsa n e)) :
    Spec.alg (.rsa n e) ∈ offered ∧
    ∃ ks', register lib hash reg ks = some ks' ∧
      ∀ authData client sig, login lib ks' cr.id authData client sig = none := by
  obtain ⟨d', g1, g2, g3, g4⟩ := hreg
  cases hd.symm.trans g1
  refine ⟨by simp [Spec.alg, offered], _, (register_iff ..).2 ⟨d, cr, hd, g4, g2, g3, hcr, rfl⟩, fun authData client sig => ?_⟩
  rw [Option.eq_none_iff_forall_ne_some]
  intro k hl
  obtain ⟨h1, -, h3⟩ := (login_iff ..).1 hl
  rw [List.find?_append, List.find?_eq_none.2 (by intro k hk; simpa using hnew k hk)] at h1
  simp at h1
  subst h1
  rw [rsa_violated lib _ _ _ _ c hc n e hk] at h3
  cases h3

/-- C161, violated: any CBOR item is registered as a public key, one of an algorithm that was not offered too, and the
user learns only when they log in that it cannot be used. -/
theorem unknown_violated (lib : Lib) (hash reg : Bytes) (ks : List UserKey) (hreg : Spec.Present lib reg hash)
    (d : Authdata.Data) (cr : Authdata.Creds)
    (hd : Authdata.parse lib.first reg = .ok d) (hcr : d.creds = some cr) (hnew : ∀ k ∈ ks, k.id ≠ cr.id)
    (hno : ∀ c, lib.cbor cr.cose = some c → ∀ a ∈ offered, c 3 ≠ some (.int a)) :
    ∃ ks', register lib hash reg ks = some ks' ∧
      ∀ authData client sig, login lib ks' cr.id authData client sig = none := by
  obtain ⟨d', g1, g2, g3, g4⟩ := hreg
  cases hd.symm.trans g1
  refine ⟨_, (register_iff ..).2 ⟨d, cr, hd, g4, g2, g3, hcr, rfl⟩, fun authData client sig => ?_⟩
  rw [Option.eq_none_iff_forall_ne_some]
  intro k hl
  obtain ⟨h1, -, h3⟩ := (login_iff ..).1 hl
  rw [List.find?_append, List.find?_eq_none.2 (by intro k hk; simpa using hnew k hk)] at h1
  simp at h1
  subst h1
  obtain ⟨c, a, h4, h5, h6⟩ := algorithm lib _ _ _ _ h3
  exact hno c h4 a h6 h5

namespace Ex

/-- A curve, a hash and signatures that are easy to compute. -/
def lib : Lib where
  first := fun b => match b with | [] => none | x :: r => some ([x], r)
  cbor := fun b =>
    if b = [2] then some fun l => if l = 1 then some (.int 2) else if l = 3 then some (.int (-7))
      else if l = -1 then some (.int 1) else if l = -2 then some (.bytes (List.replicate 31 0 ++ [7]))
      else if l = -3 then some (.bytes (List.replicate 31 0 ++ [8])) else none
    else if b = [3] then some fun l => if l = 1 then some (.int 3) else if l = 3 then some (.int (-257))
      else if l = -1 then some (.bytes [9, 9]) else if l = -2 then some (.bytes [1, 0, 1]) else none
    else if b = [4] then some fun l => if l = 1 then some (.int 3) else if l = 3 then some (.int (-257))
      else if l = -1 then some (.bytes [9, 9]) else if l = -2 then some (.int 65537) else none
    else if b = [1] then some fun l => if l = 1 then some (.int 1) else if l = 3 then some (.int (-8)) else none
    else none
  sha256 := fun b => List.replicate 31 0 ++ [b.foldl (· + ·) 0]
  onCurve := fun x y => y == x + 1
  ecdsa := fun x _ d s => s == UInt8.ofNat x :: d
  rsa := fun n e d s => n == 2313 && e == 65537 && s == d

def host : Bytes := List.replicate 32 5

/-- Authenticator data for registering a key, and for a login. -/
def reg (key : UInt8) : Bytes := host ++ [0x45, 0, 0, 0, 1] ++ List.replicate 16 0 ++ [0, 1, 77, key]
def data : Bytes := host ++ [5, 0, 0, 0, 2]

/-- What the authenticator data for registering says. -/
def regData (key : UInt8) : Authdata.Data :=
  ⟨host, true, true, false, false, true, false, 1, some ⟨List.replicate 16 0, [77], [key]⟩⟩

def signature : Bytes := 7 :: lib.sha256 (signedBytes lib data [1, 2, 3])

example : (register lib host (reg 2) []).bind (fun ks => login lib ks [77] data [1, 2, 3] signature) =
    some ⟨[77], [2], host⟩ := by decide +kernel

/-- Other client data, another key. -/
example : (register lib host (reg 2) []).bind (fun ks => login lib ks [77] data [1, 2, 4] signature) = none ∧
    (register lib host (reg 2) []).bind (fun ks => login lib ks [77] data [1, 2, 3] (8 :: signature.tail)) = none := by
  decide +kernel

theorem isEc (c : Map) (h : lib.cbor [2] = some c) : Spec.Is c (.ec 7 8) := by
  cases h
  exact ⟨List.replicate 31 0 ++ [7], List.replicate 31 0 ++ [8], by decide +kernel, by decide +kernel, by decide +kernel,
    by decide +kernel, by decide +kernel, by decide, by decide, by decide, by decide⟩

theorem isRsa (c : Map) (h : lib.cbor [3] = some c) : Spec.Is c (.rsa 2313 65537) := by
  cases h
  exact ⟨[9, 9], [1, 0, 1], by decide +kernel, by decide +kernel, by decide +kernel, by decide +kernel, by decide, by decide⟩

example : ∃ c, lib.cbor [2] = some c ∧ Spec.Is c (.ec 7 8) := ⟨_, rfl, isEc _ rfl⟩

example : verifySignature lib [2] data [1, 2, 3] signature = true :=
  (ec_partial lib _ _ _ _ _ rfl 7 8 (isEc _ rfl)).2 ⟨by decide +kernel, by decide +kernel⟩

/-- An RSA key as authenticators write it, and as the tests of the proxy do. -/
example : verifySignature lib [3] data [1, 2, 3] (lib.sha256 (signedBytes lib data [1, 2, 3])) = false ∧
    verifySignature lib [4] data [1, 2, 3] (lib.sha256 (signedBytes lib data [1, 2, 3])) = true :=
  ⟨rsa_violated lib _ _ _ _ _ rfl 2313 65537 (isRsa _ rfl), by decide +kernel⟩

example : ∃ ks', register lib host (reg 3) [] = some ks' ∧
    ∀ authData client sig, login lib ks' [77] authData client sig = none :=
  (usable_violated lib host (reg 3) [] ⟨regData 3, by decide +kernel, rfl, rfl, rfl⟩ (regData 3)
    ⟨List.replicate 16 0, [77], [3]⟩ (by decide +kernel) rfl (by simp) _ rfl 2313 65537 (isRsa _ rfl)).2

example : ∃ ks', register lib host (reg 1) [] = some ks' ∧
    ∀ authData client sig, login lib ks' [77] authData client sig = none :=
  unknown_violated lib host (reg 1) [] ⟨regData 1, by decide +kernel, rfl, rfl, rfl⟩ (regData 1)
    ⟨List.replicate 16 0, [77], [1]⟩ (by decide +kernel) rfl (by simp) (by
      intro c h
      cases h
      decide +kernel)

end Ex

end Verif.Assertion
