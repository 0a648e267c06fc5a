import Verif.Model.OcspHttp
/-
C106: OCSP requests over HTTP.
-/
namespace Verif.OcspHttp

open Verif.Path (Str)

/-! ## Specification: RFC 4648 -/

/-- The six-bit groups of some bytes, from the left, filled up with zero bits. -/
def Spec.sextets : List Nat → List Nat
  | [] => []
  | [a] => [a / 4, a % 4 * 16]
  | [a, b] => [a / 4, a % 4 * 16 + b / 16, b % 16 * 4]
  | a :: b :: c :: t => [a / 4, a % 4 * 16 + b / 16, b % 16 * 4 + c / 64, c % 64] ++ Spec.sextets t

/-- The letter of a six-bit number, in the standard alphabet or the one for URLs. -/
def Spec.letter (url : Bool) (n : Nat) : Char :=
  if n < 26 then Char.ofNat (65 + n)
  else if n < 52 then Char.ofNat (97 + (n - 26))
  else if n < 62 then Char.ofNat (48 + (n - 52))
  else if n = 62 then (if url then '-' else '+')
  else (if url then '_' else '/')

/-- Base64, with or without padding. -/
def Spec.base64 (url pad : Bool) (raw : List Nat) : Str :=
  (Spec.sextets raw).map (Spec.letter url) ++
    (if pad then List.replicate ((3 - raw.length % 3) % 3) '=' else [])

def Spec.Bytes (raw : List Nat) : Prop := ∀ b ∈ raw, b < 256

/-- A hexadecimal digit, of either case. -/
def Spec.hexDigit (n : Nat) (c : Char) : Prop :=
  "0123456789abcdef".toList[n]? = some c ∨ "0123456789ABCDEF".toList[n]? = some c

/-- The ways to write a letter of the text in the path that the handler sees: as it is unless it is
'/', escaped, and '+' as a blank. -/
inductive Spec.Form : Char → Str → Prop
  | plain {c} : c ≠ '/' → Spec.Form c [c]
  | blank : Spec.Form '+' [' ']
  | escaped {c a b} : Spec.hexDigit (c.toNat / 16) a → Spec.hexDigit (c.toNat % 16) b → Spec.Form c ['%', a, b]

inductive Spec.Forms : Str → Str → Prop
  | nil : Spec.Forms [] []
  | cons {c s t u} : Spec.Form c s → Spec.Forms t u → Spec.Forms (c :: t) (s ++ u)

/-- A '%' that is not followed by two hexadecimal digits. -/
def Spec.BadEscape (s : Str) : Prop :=
  ∃ pre rest, s = pre ++ '%' :: rest ∧ ¬ ∃ a b t n m, rest = a :: b :: t ∧ Spec.hexDigit n a ∧ Spec.hexDigit m b

/-! ## Lemmas -/

theorem sextets_lt (raw : List Nat) (h : Spec.Bytes raw) : ∀ n ∈ Spec.sextets raw, n < 64 := by
  induction raw using Spec.sextets.induct with
  | case1 => intro n hn; cases hn
  | case2 a =>
    have := h a (by simp)
    intro n hn
    simp only [Spec.sextets, List.mem_cons, List.not_mem_nil, or_false] at hn
    rcases hn with rfl | rfl <;> omega
  | case3 a b =>
    have := h a (by simp)
    have := h b (by simp)
    intro n hn
    simp only [Spec.sextets, List.mem_cons, List.not_mem_nil, or_false] at hn
    rcases hn with rfl | rfl | rfl <;> omega
  | case4 a b c t ih =>
    have := h a (by simp)
    have := h b (by simp)
    have := h c (by simp)
    intro n hn
    simp only [Spec.sextets, List.cons_append, List.nil_append, List.mem_cons] at hn
    rcases hn with rfl | rfl | rfl | rfl | hn
    · omega
    · omega
    · omega
    · omega
    · exact ih (fun b hb => h b (by simp [hb])) n hn

theorem groups_sextets (raw : List Nat) (h : Spec.Bytes raw) : groups (Spec.sextets raw) = some raw := by
  induction raw using Spec.sextets.induct with
  | case1 => rfl
  | case2 a =>
    have := h a (by simp)
    simp only [Spec.sextets, groups, Option.some.injEq, List.cons.injEq, and_true]
    omega
  | case3 a b =>
    have := h a (by simp)
    have := h b (by simp)
    simp only [Spec.sextets, groups, Option.some.injEq, List.cons.injEq, and_true]
    omega
  | case4 a b c t ih =>
    have := h a (by simp)
    have := h b (by simp)
    have := h c (by simp)
    simp only [Spec.sextets, List.cons_append, List.nil_append, groups]
    rw [ih (fun b hb => h b (by simp [hb]))]
    simp only [Option.map_some, Option.some.injEq, List.cons.injEq, and_true]
    omega

/-- Facts about each letter. -/
theorem letter_fin : ∀ (u : Bool) (n : Fin 64),
    sextet (translate (Spec.letter u n)) = some n.1 ∧ translate (Spec.letter u n) ≠ '=' ∧
    translate (Spec.letter u n) ≠ '\n' ∧ translate (Spec.letter u n) ≠ '\r' ∧ Spec.letter u n ≠ '%' ∧
    (u = true → Spec.letter u n ≠ '/') := by decide +kernel

theorem letter_ok (u : Bool) {n : Nat} (h : n < 64) :
    sextet (translate (Spec.letter u n)) = some n ∧ translate (Spec.letter u n) ≠ '=' ∧
    translate (Spec.letter u n) ≠ '\n' ∧ translate (Spec.letter u n) ≠ '\r' ∧ Spec.letter u n ≠ '%' ∧
    (u = true → Spec.letter u n ≠ '/') := letter_fin u ⟨n, h⟩

theorem afterLast_append (pre : Str) {s : Str} (h : '/' ∉ s) : afterLast (pre ++ '/' :: s) = some s := by
  unfold afterLast
  rw [if_pos (by simp)]
  have hp : ∀ c ∈ s.reverse, decide (c ≠ '/') = true := by
    intro c hc
    rw [List.mem_reverse] at hc
    simp only [ne_eq, decide_eq_true_eq]
    rintro rfl
    exact h hc
  simp only [List.reverse_append, List.reverse_cons, List.append_assoc, Option.some.injEq]
  rw [List.takeWhile_append_of_pos hp]
  simp

theorem trimPad_append {s : Str} (n : Nat) (h : ∀ c ∈ s, c ≠ '=') : trimPad (s ++ List.replicate n '=') = s := by
  unfold trimPad
  rw [List.reverse_append, List.reverse_replicate]
  have h1 : ∀ c ∈ List.replicate n '=', decide (c = '=') = true := by
    intro c hc; simp [List.eq_of_mem_replicate hc]
  rw [List.dropWhile_append_of_pos h1]
  have h2 : s.reverse.dropWhile (· = '=') = s.reverse := by
    cases hs : s.reverse with
    | nil => rfl
    | cons a t =>
      have : a ≠ '=' := h a (by rw [← List.mem_reverse, hs]; simp)
      simp [this]
  rw [h2, List.reverse_reverse]

theorem decode_letters (u : Bool) (l : List Nat) (h : ∀ n ∈ l, n < 64) :
    decode64 ((l.map (Spec.letter u)).map translate) = groups l := by
  unfold decode64
  have hf : ((l.map (Spec.letter u)).map translate).filter (fun c => c ≠ '\n' ∧ c ≠ '\r') =
      (l.map (Spec.letter u)).map translate := by
    rw [List.filter_eq_self]
    intro c hc
    simp only [List.map_map, List.mem_map, Function.comp] at hc
    obtain ⟨n, hn, rfl⟩ := hc
    have := letter_ok u (h n hn)
    simp [this.2.2.1, this.2.2.2.1]
  have hm : ((l.map (Spec.letter u)).map translate).mapM sextet = some l := by
    clear hf
    induction l with
    | nil => rfl
    | cons a t ih =>
      have := (letter_ok u (h a (by simp))).1
      rw [List.map_cons, List.map_cons, List.mapM_cons, this]
      simp only [Option.pure_def, Option.bind_eq_bind, Option.bind_some]
      rw [ih (fun n hn => h n (by simp [hn]))]
      rfl
  rw [hf, hm]

/-! ## C106 -/

theorem hexDigit_fin : ∀ n : Fin 16,
    unhex ("0123456789abcdef".toList[n.1]?.getD 'x') = some n.1 ∧
    unhex ("0123456789ABCDEF".toList[n.1]?.getD 'x') = some n.1 ∧
    "0123456789abcdef".toList[n.1]?.getD 'x' ≠ '/' ∧ "0123456789ABCDEF".toList[n.1]?.getD 'x' ≠ '/' := by
  decide +kernel

theorem hexDigit_lt {n : Nat} {c : Char} (h : Spec.hexDigit n c) : n < 16 := by
  rcases h with h | h <;>
  · obtain ⟨h, -⟩ := List.getElem?_eq_some_iff.mp h
    exact h

theorem hexDigit_unhex {n : Nat} {c : Char} (h : Spec.hexDigit n c) : unhex c = some n ∧ c ≠ '/' := by
  have := hexDigit_fin ⟨n, hexDigit_lt h⟩
  dsimp only at this
  rcases h with h | h
  · rw [h] at this; exact ⟨this.1, this.2.2.1⟩
  · rw [h] at this; exact ⟨this.2.1, this.2.2.2⟩

theorem char_range {lo hi : Nat} {c : Char} (h : lo ≤ c.toNat ∧ c.toNat ≤ hi) :
    ∃ i : Fin (hi + 1 - lo), c = Char.ofNat (lo + i.1) := by
  refine ⟨⟨c.toNat - lo, by omega⟩, ?_⟩
  dsimp only
  rw [show lo + (c.toNat - lo) = c.toNat by omega, Char.ofNat_toNat]

theorem unhex_hexDigit {c : Char} {n : Nat} (h : unhex c = some n) : Spec.hexDigit n c := by
  have f1 : ∀ i : Fin 10, "0123456789abcdef".toList[(Char.ofNat (48 + i.1)).toNat - 48]? = some (Char.ofNat (48 + i.1)) := by
    decide +kernel
  have f2 : ∀ i : Fin 6, "0123456789abcdef".toList[(Char.ofNat (97 + i.1)).toNat - 87]? = some (Char.ofNat (97 + i.1)) := by
    decide +kernel
  have f3 : ∀ i : Fin 6, "0123456789ABCDEF".toList[(Char.ofNat (65 + i.1)).toNat - 55]? = some (Char.ofNat (65 + i.1)) := by
    decide +kernel
  unfold unhex at h
  split at h
  · rename_i hr
    obtain ⟨i, rfl⟩ := char_range (lo := 48) (hi := 57) ⟨hr.1, hr.2⟩
    cases h
    exact .inl (f1 i)
  · split at h
    · rename_i hr
      obtain ⟨i, rfl⟩ := char_range (lo := 97) (hi := 102) ⟨hr.1, hr.2⟩
      cases h
      exact .inl (f2 i)
    · split at h
      · rename_i hr
        obtain ⟨i, rfl⟩ := char_range (lo := 65) (hi := 70) ⟨hr.1, hr.2⟩
        cases h
        exact .inr (f3 i)
      · cases h

theorem unescape_cons {c : Char} (h : c ≠ '%') (t : Str) : pathUnescape (c :: t) = (pathUnescape t).map (c :: ·) := by
  rw [pathUnescape]
  · intro a b t' he; exact absurd he (by simp [h])
  · intro a he; exact absurd he (by simp [h])
  · intro he; exact absurd he (by simp [h])

theorem unescape_esc {a b : Char} {x y : Nat} (ha : unhex a = some x) (hb : unhex b = some y) (t : Str) :
    pathUnescape ('%' :: a :: b :: t) = (pathUnescape t).map (Char.ofNat (16 * x + y) :: ·) := by
  rw [pathUnescape, ha, hb]
  cases pathUnescape t <;> rfl

/-- What the handler makes of a text in any form, before it is translated. -/
theorem forms_unescape {t u : Str} (h : Spec.Forms t u) (hp : ∀ c ∈ t, c ≠ '%') :
    '/' ∉ u ∧ ∃ d, pathUnescape u = some d ∧ d.map translate = t.map translate := by
  induction h with
  | nil => exact ⟨by simp, [], rfl, rfl⟩
  | @cons c s t u hf _ ih =>
    obtain ⟨h1, d, h2, h3⟩ := ih (fun c hc => hp c (by simp [hc]))
    cases hf with
    | plain hc =>
      refine ⟨by simpa using ⟨fun h => hc h.symm, h1⟩, c :: d, ?_, by simp [h3]⟩
      show pathUnescape (c :: u) = _
      rw [unescape_cons (hp c (by simp)), h2]
      rfl
    | blank =>
      refine ⟨by simpa using h1, ' ' :: d, ?_, ?_⟩
      · show pathUnescape (' ' :: u) = _
        rw [unescape_cons (by decide), h2]
        rfl
      · rw [List.map_cons, List.map_cons, h3]
        rfl
    | @escaped _ a b ha hb =>
      have ha := hexDigit_unhex ha
      have hb := hexDigit_unhex hb
      refine ⟨?_, c :: d, ?_, by simp [h3]⟩
      · simp only [List.cons_append, List.nil_append, List.mem_cons, not_or]
        exact ⟨by decide, ha.2.symm, hb.2.symm, h1⟩
      · show pathUnescape ('%' :: a :: b :: u) = _
        rw [unescape_esc ha.1 hb.1, h2, show 16 * (c.toNat / 16) + c.toNat % 16 = c.toNat by omega, Char.ofNat_toNat]
        rfl

theorem unescape_none (s : Str) : pathUnescape s = none ↔ Spec.BadEscape s := by
  have skip : ∀ {c : Char} {t : Str}, c ≠ '%' → (Spec.BadEscape (c :: t) ↔ Spec.BadEscape t) := by
    intro c t hc
    constructor
    · rintro ⟨pre, rest, he, hn⟩
      cases pre with
      | nil => simp at he; exact absurd he.1 hc
      | cons x pre => simp at he; exact ⟨pre, rest, he.2, hn⟩
    · rintro ⟨pre, rest, he, hn⟩
      exact ⟨c :: pre, rest, by simp [he], hn⟩
  have notpct : ∀ {a : Char} {x : Nat}, unhex a = some x → a ≠ '%' := by
    rintro a x h rfl
    rw [show unhex '%' = none by decide] at h
    cases h
  have bad : ∀ {t : Str}, (¬ ∃ a b t' n m, t = a :: b :: t' ∧ Spec.hexDigit n a ∧ Spec.hexDigit m b) →
      Spec.BadEscape ('%' :: t) := fun h => ⟨[], _, rfl, h⟩
  induction s using pathUnescape.induct with
  | case1 =>
    constructor
    · intro h; cases h
    · rintro ⟨pre, rest, he, -⟩; simp at he
  | case2 a b t x y r hr hy hx ih =>
    rw [unescape_esc hx hy, hr]
    simp only [Option.map_some, reduceCtorEq, false_iff]
    rintro ⟨pre, rest, he, hn⟩
    cases pre with
    | nil =>
      simp at he
      exact hn ⟨a, b, t, x, y, he.symm, unhex_hexDigit hx, unhex_hexDigit hy⟩
    | cons z pre =>
      have hb : Spec.BadEscape (a :: b :: t) := by
        simp at he
        exact ⟨pre, rest, he.2, hn⟩
      have hb := ih.mpr ((skip (notpct hy)).mp ((skip (notpct hx)).mp hb))
      rw [hr] at hb
      cases hb
  | case3 a b t hno ih =>
    have hnone : pathUnescape ('%' :: a :: b :: t) = none := by
      rw [pathUnescape]
      split
      · rename_i x y r h1 h2 h3
        exact absurd h3 (hno x y r h1 h2)
      · rfl
    rw [hnone]
    simp only [true_iff]
    cases ha : unhex a with
    | none =>
      apply bad
      rintro ⟨a', b', t', n, m, he, h1, -⟩
      simp at he
      rw [← he.1] at h1
      rw [(hexDigit_unhex h1).1] at ha
      cases ha
    | some x =>
      cases hb : unhex b with
      | none =>
        apply bad
        rintro ⟨a', b', t', n, m, he, -, h1⟩
        simp at he
        rw [← he.2.1] at h1
        rw [(hexDigit_unhex h1).1] at hb
        cases hb
      | some y =>
        have hc : pathUnescape t = none := by
          cases hr : pathUnescape t with
          | none => rfl
          | some r => exact absurd hr (hno x y r ha hb)
        obtain ⟨pre, rest, he, hn⟩ := ih.mp hc
        exact ⟨'%' :: a :: b :: pre, rest, by simp [he], hn⟩
  | case4 a =>
    refine iff_of_true rfl (bad ?_)
    rintro ⟨a', b', t', n, m, he, -⟩
    simp at he
  | case5 =>
    refine iff_of_true rfl (bad ?_)
    rintro ⟨a', b', t', n, m, he, -⟩
    simp at he
  | case6 c t h1 h2 h3 ih =>
    have hc : c ≠ '%' := by
      rintro rfl
      cases t with
      | nil => exact h3 rfl rfl
      | cons a t =>
        cases t with
        | nil => exact h2 a rfl rfl
        | cons b t => exact h1 a b t rfl rfl
    rw [unescape_cons hc]
    refine Iff.trans ?_ (ih.trans (skip hc).symm)
    simp

theorem base64_pct (url pad : Bool) (raw : List Nat) (hb : Spec.Bytes raw) :
    ∀ c ∈ Spec.base64 url pad raw, c ≠ '%' := by
  intro c hc
  unfold Spec.base64 at hc
  rcases List.mem_append.mp hc with h | h
  · obtain ⟨n, hn, rfl⟩ := List.mem_map.mp h
    exact (letter_ok url (sextets_lt raw hb n hn)).2.2.2.2.1
  · split at h
    · rw [List.eq_of_mem_replicate h]; decide
    · cases h

/-- C106, GET. In either alphabet, padded or not, and with any letters escaped in the (decoded) path
that the handler sees, every OCSP request is read exactly as the client wrote it, as long as no '/'
is visible. -/
theorem ocsp_get_forms (pre : Str) (url pad : Bool) (raw : List Nat) (hb : Spec.Bytes raw) (u : Str)
    (hu : Spec.Forms (Spec.base64 url pad raw) u) (ct : String) (body : List Nat) :
    serveOCSP "GET" (pre ++ '/' :: u) ct body = .parse raw := by
  have hlt := sextets_lt raw hb
  show fromPath _ = _
  unfold fromPath
  obtain ⟨hs, d, hd, hm⟩ := forms_unescape hu (base64_pct url pad raw hb)
  rw [afterLast_append pre hs]
  dsimp only
  rw [hd]
  dsimp only
  rw [hm]
  have ht : trimPad ((Spec.base64 url pad raw).map translate) =
      ((Spec.sextets raw).map (Spec.letter url)).map translate := by
    unfold Spec.base64
    rw [List.map_append]
    have h1 : ∀ c ∈ ((Spec.sextets raw).map (Spec.letter url)).map translate, c ≠ '=' := by
      intro c hc
      simp only [List.map_map, List.mem_map, Function.comp] at hc
      obtain ⟨n, hn, rfl⟩ := hc
      exact (letter_ok url (hlt n hn)).2.1
    cases pad with
    | false =>
      have := trimPad_append 0 h1
      simpa using this
    | true =>
      have he : translate '=' = '=' := by decide
      rw [if_pos rfl, List.map_replicate, he]
      exact trimPad_append _ h1
  rw [ht, decode_letters url _ hlt, groups_sextets raw hb]

theorem forms_self {s : Str} (h : '/' ∉ s) : Spec.Forms s s := by
  induction s with
  | nil => exact .nil
  | cons c t ih =>
    simp only [List.mem_cons, not_or] at h
    exact .cons (.plain (Ne.symm h.1)) (ih h.2)

theorem get_ok (pre : Str) (url pad : Bool) (raw : List Nat) (hb : Spec.Bytes raw)
    (hs : '/' ∉ Spec.base64 url pad raw) (ct : String) (body : List Nat) :
    serveOCSP "GET" (pre ++ '/' :: Spec.base64 url pad raw) ct body = .parse raw :=
  ocsp_get_forms pre url pad raw hb _ (forms_self hs) ct body

/-- "+/8=" with an escaped slash and a blank. -/
example : Spec.base64 false true [251, 255] = "+/8=".toList ∧
    Spec.Forms "+/8=".toList " %2f8=".toList ∧
    serveOCSP "GET" "/ocsp/ %2f8=".toList "" [] = .parse [251, 255] := by
  refine ⟨by decide +kernel, ?_, by decide +kernel⟩
  have h : " %2f8=".toList = [' '] ++ (['%', '2', 'f'] ++ (['8'] ++ (['='] ++ []))) := by decide
  rw [h]
  exact .cons .blank (.cons (.escaped (.inl (by decide)) (.inl (by decide)))
    (.cons (.plain (by decide)) (.cons (.plain (by decide)) .nil)))

/-- A malformed escape behind the last slash is refused. -/
theorem ocsp_bad_escape (pre u : Str) (hs : '/' ∉ u) (hb : Spec.BadEscape u) (ct : String) (body : List Nat) :
    serveOCSP "GET" (pre ++ '/' :: u) ct body = .bad := by
  show fromPath _ = _
  unfold fromPath
  rw [afterLast_append pre hs]
  dsimp only
  rw [(unescape_none u).mpr hb]

example : Spec.BadEscape "AB%4".toList := by
  refine ⟨"AB".toList, "4".toList, by decide, ?_⟩
  rintro ⟨a, b, t, n, m, h, -⟩
  have := congrArg List.length h
  simp at this

/-- C106, GET. Sent in the URL alphabet, padded or not, every OCSP request is read exactly as the
client wrote it. -/
theorem ocsp_get_url (pre : Str) (pad : Bool) (raw : List Nat) (hb : Spec.Bytes raw) (ct : String) (body : List Nat) :
    serveOCSP "GET" (pre ++ '/' :: Spec.base64 true pad raw) ct body = .parse raw := by
  refine get_ok pre true pad raw hb ?_ ct body
  intro h
  unfold Spec.base64 at h
  rcases List.mem_append.mp h with h | h
  · obtain ⟨n, hn, he⟩ := List.mem_map.mp h
    exact (letter_ok true (sextets_lt raw hb n hn)).2.2.2.2.2 rfl he
  · split at h
    · exact absurd (List.eq_of_mem_replicate h) (by decide)
    · cases h

/-- C106, GET in the standard alphabet (the one of RFC 6960). Missing: requests whose text contains
a '/'. The path is decoded before the text is cut out of it at its last '/'. -/
theorem ocsp_get_partial (pre : Str) (pad : Bool) (raw : List Nat) (hb : Spec.Bytes raw)
    (hs : '/' ∉ Spec.base64 false pad raw) (ct : String) (body : List Nat) :
    serveOCSP "GET" (pre ++ '/' :: Spec.base64 false pad raw) ct body = .parse raw :=
  get_ok pre false pad raw hb hs ct body

example : Spec.base64 false true [48, 84, 1, 251] = "MFQB+w==".toList ∧
    '/' ∉ Spec.base64 false true [48, 84, 1, 251] ∧
    serveOCSP "GET" "/ocsp/MFQB+w==".toList "" [] = .parse [48, 84, 1, 251] := by decide +kernel

/-- C106, violated: an OCSP request sent in the standard alphabet is refused, another one is read as
something else. -/
theorem ocsp_get_violated :
    (∃ pre raw, Spec.Bytes raw ∧ serveOCSP "GET" (pre ++ '/' :: Spec.base64 false true raw) "" [] = .bad) ∧
    (∃ pre raw raw', Spec.Bytes raw ∧ raw' ≠ raw ∧
      serveOCSP "GET" (pre ++ '/' :: Spec.base64 false true raw) "" [] = .parse raw') := by
  refine ⟨⟨"/ocsp".toList, [48, 84, 252, 255, 255, 1, 2, 3], ?_, by decide +kernel⟩,
    ⟨"/ocsp".toList, [255, 240, 0, 1, 2, 3], [0, 0, 16, 32], ?_, by decide, by decide +kernel⟩⟩ <;>
  · unfold Spec.Bytes
    decide

/-- C106, POST. A request body is read exactly if it has the right type and less than 4096 bytes,
and refused otherwise. -/
theorem ocsp_post (path : Str) (ct : String) (body raw : List Nat) :
    serveOCSP "POST" path ct body = .parse raw ↔
      ct = "application/ocsp-request" ∧ body.length < 4096 ∧ raw = body := by
  show fromBody ct body = .parse raw ↔ _
  unfold fromBody
  by_cases h1 : ct = "application/ocsp-request"
  · rw [if_neg (by simpa using h1)]
    dsimp only
    by_cases h2 : body.length < 4096
    · have ht : body.take 4096 = body := List.take_of_length_le (by omega)
      rw [ht, if_neg (by omega)]
      simp [h1, h2, eq_comm]
    · have hl : (body.take 4096).length = 4096 := by rw [List.length_take]; omega
      rw [if_pos hl]
      simp [h2]
  · rw [if_pos h1]
    simp [h1]

/-- The characters of both base64 alphabets, what stands for them in a path, and what is skipped. -/
def Spec.Letter (c : Char) : Prop :=
  ('A' ≤ c ∧ c ≤ 'Z') ∨ ('a' ≤ c ∧ c ≤ 'z') ∨ ('0' ≤ c ∧ c ≤ '9') ∨
    c ∈ ['-', '_', '+', '/', ' ', '=', '\n', '\r']

theorem mapM_none {f : Char → Option Nat} {l : Str} {c : Char} (hc : c ∈ l) (hf : f c = none) : l.mapM f = none := by
  induction l with
  | nil => cases hc
  | cons a l ih =>
    rw [List.mapM_cons]
    rcases List.mem_cons.mp hc with rfl | h
    · rw [hf]; rfl
    · rw [ih h]
      cases f a <;> rfl

theorem mem_trimPad {s : Str} {c : Char} (hc : c ∈ s) (hne : c ≠ '=') : c ∈ trimPad s := by
  unfold trimPad
  rw [List.mem_reverse]
  have hr : c ∈ s.reverse := List.mem_reverse.mpr hc
  generalize s.reverse = l at hr
  induction l with
  | nil => cases hr
  | cons a l ih =>
    by_cases ha : a = '='
    · rw [List.dropWhile_cons_of_pos (by simpa using ha)]
      refine ih ?_
      rcases List.mem_cons.mp hr with h | h
      · exact absurd (h.trans ha) hne
      · exact h
    · rw [List.dropWhile_cons_of_neg (by simpa using ha)]
      exact hr

/-- C106, GET. A text with a character outside both alphabets is refused, not read as something else. -/
theorem ocsp_bad_letter (pre u : Str) (hs : '/' ∉ u) (hp : '%' ∉ u) (hb : ∃ c ∈ u, ¬Spec.Letter c) (ct : String)
    (body : List Nat) : serveOCSP "GET" (pre ++ '/' :: u) ct body = .bad := by
  obtain ⟨c, hc, hn⟩ := hb
  show fromPath _ = _
  unfold fromPath
  rw [afterLast_append pre hs]
  have hu : pathUnescape u = some u := by
    clear hs hc
    induction u with
    | nil => rfl
    | cons a t ih =>
      simp only [List.mem_cons, not_or] at hp
      rw [unescape_cons (Ne.symm hp.1), ih hp.2]
      rfl
  dsimp only
  rw [hu]
  dsimp only
  unfold Spec.Letter at hn
  simp only [List.mem_cons, List.not_mem_nil, or_false, not_or] at hn
  obtain ⟨n1, n2, n3, m1, m2, m3, m4, m5, m6, m7, m8⟩ := hn
  have ht : translate c = c := by
    unfold translate
    rw [if_neg m5, if_neg m3, if_neg m4]
  have hm : c ∈ trimPad (u.map translate) := mem_trimPad (List.mem_map.mpr ⟨c, hc, ht⟩) m6
  have hsx : sextet c = none := by
    unfold sextet
    rw [if_neg n1, if_neg n2, if_neg n3, if_neg m1, if_neg m2]
  have hd : decode64 (trimPad (u.map translate)) = none := by
    unfold decode64
    rw [mapM_none (c := c) (List.mem_filter.mpr ⟨hm, by simp [m7, m8]⟩) hsx]
  rw [hd]

/-- C106, GET. A path without '/' has no request. -/
theorem ocsp_no_slash (u : Str) (hs : '/' ∉ u) (ct : String) (body : List Nat) :
    serveOCSP "GET" u ct body = .bad := by
  show fromPath _ = _
  unfold fromPath afterLast
  rw [if_neg hs]

example : '/' ∉ "MF*B".toList ∧ '%' ∉ "MF*B".toList ∧ (∃ c ∈ "MF*B".toList, ¬Spec.Letter c) ∧
    serveOCSP "GET" "/ocsp/MF*B".toList "" [] = .bad := by
  refine ⟨by decide, by decide, ⟨'*', by decide, ?_⟩, by decide +kernel⟩
  unfold Spec.Letter
  decide

/-- Other methods are refused. -/
theorem ocsp_method (m : String) (path : Str) (ct : String) (body : List Nat) (h1 : m ≠ "GET") (h2 : m ≠ "POST") :
    serveOCSP m path ct body = .bad := by
  unfold serveOCSP
  rw [if_neg h1, if_neg h2]

example : serveOCSP "POST" [] "application/ocsp-request" [1, 2] = .parse [1, 2] := by decide +kernel

end Verif.OcspHttp
