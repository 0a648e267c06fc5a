import Verif.Lemmas.Hello
/-
C01, C02, C84: inspecting the first bytes of a connection.
-/
namespace Verif.Hello

open Spec

/-! ## C01 -/

/-- C01. For every well-formed hello, whatever follows on the wire, the proxy extracts the
client's server name (empty when there is none) and exactly its ALPN list, in order. -/
theorem hello_roundtrip (h : Hello) (hw : h.WF) (trailing : Bytes) :
    (peekClientHello (h.record ++ trailing)).res =
      .ok { serverName := h.hosts.head?.getD [], alpnProtos := h.protos } := by
  have hfit := hw.fits
  have hp := parseExts_enc h.exts hw.exts {} hw.oneName (by simp)
  have hx := helloExtensions_enc h hw
  have hcons : h.message = 1 :: h.message.tail := rfl
  have hlen : UInt8.toNat (UInt8.ofNat (h.message.length / 256)) * 256 +
      UInt8.toNat (UInt8.ofNat (h.message.length % 256)) = h.message.length := by
    rw [toNat_ofNat_lt (by omega), toNat_ofNat_lt (by omega)]; omega
  unfold peekClientHello
  simp only [Hello.record, vec16, u16, List.cons_append, List.nil_append, List.append_assoc,
    hlen]
  rw [if_neg (by simp), if_neg (by omega), if_neg (by simp)]
  simp only [List.take_left]
  unfold parseBody
  rw [hcons]
  simp only [ne_eq, not_true_eq_false, ↓reduceIte]
  rw [← hcons, hx]
  simp only [hp]
  simp [Hello.hosts, Hello.protos]

/-- A concrete hello: unknown extension first, SNI "a.b", ALPN h2, http/1.1. -/
def sampleHello : Hello where
  recordVersion := (3, 1)
  version := (3, 3)
  random := List.replicate 32 7
  sessionId := [1, 2, 3]
  cipherSuites := [0x13, 0x01]
  compression := [0]
  exts := [.other 43 [2, 3, 4], .sni [97, 46, 98], .alpn [[104, 50], [104, 116, 116, 112]]]

example : sampleHello.WF where
  random := by decide
  sessionId := by decide
  cipherSuites := by decide
  compression := by decide
  exts := by
    intro e he
    simp [sampleHello] at he
    rcases he with rfl | rfl | rfl <;> simp [Ext.WF, vec8]
  oneName := by decide
  fits := by decide

example : (peekClientHello (sampleHello.record ++ [1, 2, 3])).res =
    .ok { serverName := [97, 46, 98], alpnProtos := [[104, 50], [104, 116, 116, 112]] } := by
  decide +kernel

/-! ## C02 -/

/-- C02 (violated). A handshake record of announced length zero makes the parser panic
(index out of range at hello.go:76). The panic is recovered in `handleConnection`
(proxy.go:1122-1128), so it costs the connection, not the process. -/
theorem hello_total_violated :
    ¬ ∀ st : Bytes, (peekClientHello st).res ≠ .panic := by
  intro h
  exact h [0x16, 3, 1, 0, 0] (by decide)

/-- C02 (what holds). The parser panics on no other input: it panics iff the first record is
a handshake record announcing length zero. -/
theorem hello_total_partial (st : Bytes) :
    (peekClientHello st).res = .panic ↔
      ∃ v1 v2 rest, st = 0x16 :: v1 :: v2 :: 0 :: 0 :: rest := by
  constructor
  · intro h
    unfold peekClientHello at h
    split at h
    · rename_i b0 v1 v2 b3 b4 rest
      split at h
      · cases h
      · rename_i h0
        simp only at h
        split at h
        · cases h
        · split at h
          · cases h
          · rename_i h1 h2
            simp only at h
            unfold parseBody at h
            split at h
            · rename_i hnil
              have hz : b3.toNat * 256 + b4.toNat = 0 := by
                rcases List.take_eq_nil_iff.mp hnil with hz | hz
                · exact hz
                · subst hz; simp at h2; omega
              have e3 : b3 = 0 := by apply UInt8.toNat_inj.mp; simp; omega
              have e4 : b4 = 0 := by apply UInt8.toNat_inj.mp; simp; omega
              refine ⟨v1, v2, rest, ?_⟩
              simp at h0
              rw [h0, e3, e4]
            · split at h
              · cases h
              · split at h
                · cases h
                · split at h <;> cases h
    · cases h
  · rintro ⟨v1, v2, rest, rfl⟩
    simp [peekClientHello, parseBody]

/-- C02 (bounded look-ahead). The parser never asks for more than the 5 byte header and the
record it announces, hence never for more than 5 + 16384 bytes. -/
theorem hello_lookahead_bounded (st : Bytes) :
    ∀ n ∈ (peekClientHello st).peeks, n ≤ 5 + 16384 := by
  intro n hn
  unfold peekClientHello at hn
  split at hn
  · split at hn
    · simp at hn; omega
    · simp only at hn
      split at hn
      · simp at hn; omega
      · split at hn <;> · simp at hn; omega
  · simp at hn; omega

/-- C02 (exact look-ahead). The parser waits for the 5 bytes of a record header, and then, only if it is a
handshake record of at most 16384 bytes, for exactly the record it announces: a client is never kept waiting
for bytes it does not owe. -/
theorem hello_lookahead_exact (st : Bytes) :
    ((peekClientHello st).peeks = [5] ∧
      ∀ v1 v2 l1 l2 rest, st = 0x16 :: v1 :: v2 :: l1 :: l2 :: rest → 16384 < l1.toNat * 256 + l2.toNat) ∨
    ∃ v1 v2 l1 l2 rest, st = 0x16 :: v1 :: v2 :: l1 :: l2 :: rest ∧ l1.toNat * 256 + l2.toNat ≤ 16384 ∧
      (peekClientHello st).peeks = [5, 5 + (l1.toNat * 256 + l2.toNat)] := by
  unfold peekClientHello
  split
  · rename_i b0 v1 v2 b3 b4 rest
    split
    · rename_i hb
      refine .inl ⟨rfl, ?_⟩
      rintro _ _ _ _ _ h
      cases h
      exact absurd rfl hb
    · rename_i hb
      have hb : b0 = 0x16 := Decidable.not_not.1 hb
      subst hb
      dsimp only
      split
      · rename_i hl
        refine .inl ⟨rfl, ?_⟩
        rintro _ _ _ _ _ h
        cases h
        exact hl
      · rename_i hl
        refine .inr ⟨v1, v2, b3, b4, rest, rfl, Nat.le_of_not_lt hl, ?_⟩
        split <;> rfl
  · rename_i hn
    refine .inl ⟨rfl, ?_⟩
    rintro _ _ _ _ _ rfl
    exact absurd rfl (hn _ _ _ _ _ _)

/-- The result depends only on the first record: bytes after it are never looked at. -/
theorem hello_only_first_record (b1 b2 l1 l2 : UInt8) (body t1 t2 : Bytes)
    (hl : body.length = l1.toNat * 256 + l2.toNat) :
    peekClientHello (0x16 :: b1 :: b2 :: l1 :: l2 :: (body ++ t1)) =
      peekClientHello (0x16 :: b1 :: b2 :: l1 :: l2 :: (body ++ t2)) := by
  unfold peekClientHello
  simp only
  split
  · rfl
  · split
    · rfl
    · rw [if_neg (by simp; omega), if_neg (by simp; omega), ← hl, List.take_left, List.take_left]

example : (peekClientHello [0x16, 3, 1, 0, 0]).res = .panic := by decide
example : (peekClientHello [0x16, 3, 1, 0, 4, 2, 0, 0, 0]).res = .err := by decide

/-! ## C84 -/

/-- C84. All refusals written by the proxy are well-formed fatal alerts:
close_notify 0, handshake_failure 40, internal_error 80, unrecognized_name 112. -/
theorem alerts_wellformed :
    Spec.isFatalAlert sendCloseNotify 0 ∧ Spec.isFatalAlert sendHandshakeFailure 40 ∧
    Spec.isFatalAlert sendInternalError 80 ∧ Spec.isFatalAlert sendUnrecognizedName 112 := by
  refine ⟨⟨_, ?_, rfl⟩, ⟨_, ?_, rfl⟩, ⟨_, ?_, rfl⟩, ⟨_, ?_, rfl⟩⟩ <;> decide

end Verif.Hello
