import Verif.Model.PemRead
import Verif.Props.Pem
/-!
# C172: what was written in PEM form is read back as it was
-/
namespace Verif.Pem

open Verif.Path (Str)

/-- A label as they are in use: no hyphens, colons and line breaks. -/
def Spec.Label (type : Str) : Prop := '-' ∉ type ∧ ':' ∉ type ∧ '\n' ∉ type

/-! ## Base64 -/

theorem sextet_fin : ∀ n : Fin 64, stdSextet (OcspHttp.Spec.letter false n) = some n.1 ∧ OcspHttp.Spec.letter false n ≠ '=' := by
  decide +kernel

theorem stdSextet_digit (n : Nat) : stdSextet (stdDigit n) = some (n % 64) := by
  rw [stdDigit_eq (a := n) rfl]
  exact (sextet_fin ⟨n % 64, by omega⟩).1

theorem stdDigit_ne (n : Nat) : stdDigit n ≠ '=' := by
  rw [stdDigit_eq (a := n) rfl]
  exact (sextet_fin ⟨n % 64, by omega⟩).2

theorem decodeStd_four {a b c d : Char} {t : Str} {x y z w : Nat} {r : List Nat} (ha : stdSextet a = some x)
    (hb : stdSextet b = some y) (hc : stdSextet c = some z) (hd : stdSextet d = some w) (hne : d ≠ '=') (ht : decodeStd t = some r) :
    decodeStd (a :: b :: c :: d :: t) = some ([x * 4 + y / 16, y % 16 * 16 + z / 4, z % 4 * 64 + w] ++ r) := by
  rw [decodeStd]
  · rw [ha, hb, hc, hd, ht]
  · intros; exact absurd ‹d = '='› hne
  · intros; exact absurd ‹d = '='› hne

theorem decodeStd_encode (l : List Nat) (h : OcspHttp.Spec.Bytes l) : decodeStd (encodeStd l) = some l := by
  induction l using encodeStd.induct with
  | case1 => rfl
  | case2 a =>
    have := h a (by simp)
    simp only [encodeStd]
    rw [decodeStd, stdSextet_digit, stdSextet_digit]
    dsimp only
    rw [show a * 65536 / 262144 % 64 * 4 + a * 65536 / 4096 % 64 / 16 = a by omega]
  | case3 a b =>
    have := h a (by simp)
    have := h b (by simp)
    simp only [encodeStd]
    rw [decodeStd]
    · rw [stdSextet_digit, stdSextet_digit, stdSextet_digit]
      dsimp only
      congr 2
      · omega
      · congr 1
        omega
    · intro e; exact absurd e (stdDigit_ne _)
  | case4 a b c t ih =>
    have := h a (by simp)
    have := h b (by simp)
    have := h c (by simp)
    simp only [encodeStd]
    rw [decodeStd_four (stdSextet_digit _) (stdSextet_digit _) (stdSextet_digit _) (stdSextet_digit _) (stdDigit_ne _)
      (ih fun b hb => h b (by simp [hb]))]
    simp only [List.cons_append, List.nil_append]
    congr 2
    · omega
    · congr 1
      · omega
      · congr 1
        omega

/-! ## Lines -/

theorem cut_newline (l r : Str) (h : '\n' ∉ l) : cutAt ['\n'] (l ++ '\n' :: r) = some (l, r) := by
  induction l with
  | nil => rw [List.nil_append, cutAt, if_pos (by simp)]; rfl
  | cons c l ih =>
    rw [List.mem_cons, not_or] at h
    rw [List.cons_append, cutAt, if_neg (by simpa using h.1), ih h.2]
    rfl

theorem trim_last (l : Str) (c : Char) (hc : c ≠ ' ' ∧ c ≠ '\t') : trimBlanks (l ++ [c]) = l ++ [c] := by
  unfold trimBlanks
  rw [List.reverse_append, List.reverse_singleton, List.singleton_append, List.dropWhile_cons_of_neg (by simpa using hc)]
  simp

/-- A line that does not end in a blank or a carriage return. -/
theorem line_plain (l r : Str) (c : Char) (hl : '\n' ∉ l) (hc : c ≠ ' ' ∧ c ≠ '\t' ∧ c ≠ '\n' ∧ c ≠ '\r') :
    getLine (l ++ [c] ++ '\n' :: r) = (l ++ [c], r) := by
  unfold getLine
  rw [cut_newline _ _ (by simp [hl, Ne.symm hc.2.2.1])]
  dsimp only
  rw [List.getLast?_append, List.getLast?_singleton, Option.some_or, if_neg (by simpa using hc.2.2.2), trim_last _ _ ⟨hc.1, hc.2.1⟩]

theorem line_empty (r : Str) : getLine ('\n' :: r) = ([], r) := by
  have := cut_newline [] r (by simp)
  rw [List.nil_append] at this
  unfold getLine
  rw [this]
  rfl

/-- The rest begins after the first line break, whatever the line is. -/
theorem line_rest (l r : Str) (h : '\n' ∉ l) : (getLine (l ++ '\n' :: r)).2 = r := by
  unfold getLine
  rw [cut_newline _ _ h]

theorem line_mem (l r : Str) (h : '\n' ∉ l) : ∀ c ∈ (getLine (l ++ '\n' :: r)).1, c ∈ l := by
  unfold getLine
  rw [cut_newline _ _ h]
  dsimp only
  intro c hc
  unfold trimBlanks at hc
  rw [List.mem_reverse] at hc
  have := (List.dropWhile_sublist _).subset hc
  rw [List.mem_reverse] at this
  split at this
  · exact List.dropLast_subset _ this
  · exact this

theorem cut_end (c r : Str) (h : '-' ∉ c) : cutAt "\n-----END ".toList (c ++ "\n-----END ".toList ++ r) = some (c, r) := by
  induction c with
  | nil =>
    rw [List.nil_append]
    show cutAt _ ('\n' :: ("-----END ".toList ++ r)) = _
    rw [cutAt, if_pos (by simp [List.isPrefixOf])]
    rfl
  | cons d c ih =>
    rw [List.mem_cons, not_or] at h
    rw [List.cons_append, List.cons_append, cutAt, if_neg, ih h.2]
    · rfl
    · cases c with
      | nil => simp [List.isPrefixOf]
      | cons e c =>
        rw [List.mem_cons, not_or] at h
        simp [List.isPrefixOf, h.2.1]

/-! ## Blocks -/

theorem body_cases {t u : Str} (h : Spec.Body t u) : u = [] ∧ t = [] ∨ ∃ c, u = c ++ ['\n'] ∧ c.filter (· ≠ '\n') = t := by
  cases h with
  | done => exact .inl ⟨rfl, rfl⟩
  | last h1 h2 h3 =>
    have := (body_text (Spec.Body.last h1 h2 h3)).1
    rw [List.filter_append] at this
    exact .inr ⟨_, rfl, by simpa using this⟩
  | @full l t u h1 h2 h3 =>
    have key := (body_text (Spec.Body.full h1 h2 h3)).1
    have ends : ∀ {t u : Str}, Spec.Body t u → u = [] ∨ ∃ c, u = c ++ ['\n'] := by
      intro t u h
      induction h with
      | done => exact .inl rfl
      | last => exact .inr ⟨_, rfl⟩
      | @full l t u _ _ _ ih =>
        rcases ih with rfl | ⟨c, rfl⟩
        · exact .inr ⟨l, rfl⟩
        · exact .inr ⟨l ++ '\n' :: c, by simp⟩
    have e : ∃ c, l ++ '\n' :: u = c ++ ['\n'] := by
      rcases ends h3 with rfl | ⟨c, rfl⟩
      · exact ⟨l, rfl⟩
      · exact ⟨l ++ '\n' :: c, by simp⟩
    obtain ⟨c, e⟩ := e
    rw [e] at key ⊢
    rw [List.filter_append] at key
    exact .inr ⟨c, rfl, by simpa using key⟩

theorem plain_fin : ∀ n : Fin 64, OcspHttp.Spec.letter false n ≠ ' ' ∧ OcspHttp.Spec.letter false n ≠ '\t' ∧
    OcspHttp.Spec.letter false n ≠ '\r' ∧ OcspHttp.Spec.letter false n ≠ ':' := by decide +kernel

theorem base64_blank (l : List Nat) (h : OcspHttp.Spec.Bytes l) :
    ∀ c ∈ OcspHttp.Spec.base64 false true l, c ≠ ' ' ∧ c ≠ '\t' ∧ c ≠ '\r' ∧ c ≠ ':' := by
  intro c hc
  unfold OcspHttp.Spec.base64 at hc
  rcases List.mem_append.mp hc with h1 | h1
  · obtain ⟨n, hn, rfl⟩ := List.mem_map.mp h1
    exact plain_fin ⟨n, OcspHttp.sextets_lt l h n hn⟩
  · rw [if_pos rfl] at h1
    rw [List.eq_of_mem_replicate h1]
    decide

/-- The characters of a body are those of its text and line breaks. -/
theorem body_mem {t u : Str} (h : Spec.Body t u) : ∀ c ∈ u, c = '\n' ∨ c ∈ t := by
  intro c hc
  rw [← (body_text h).1, List.mem_filter]
  by_cases e : c = '\n'
  · exact .inl e
  · exact .inr ⟨hc, by simpa using e⟩

theorem squeeze_eq {c t : Str} (h : c.filter (· ≠ '\n') = t) (ht : ∀ d ∈ t, d ≠ ' ' ∧ d ≠ '\t' ∧ d ≠ '\r') : squeeze c = t := by
  have : squeeze c = (c.filter (· ≠ '\n')).filter fun d => d ≠ ' ' ∧ d ≠ '\t' ∧ d ≠ '\r' := by
    unfold squeeze
    rw [List.filter_filter]
    congr 1
    funext d
    by_cases h1 : d = ' ' <;> by_cases h2 : d = '\t' <;> by_cases h3 : d = '\n' <;> by_cases h4 : d = '\r' <;> simp [h1, h2, h3, h4]
  rw [this, h, List.filter_eq_self]
  intro d hd
  rw [decide_eq_true_eq]
  exact ht d hd

theorem label_line (type r : Str) (h : Spec.Label type) :
    getLine (type ++ ("-----\n".toList ++ r)) = (type ++ "-----".toList, r) := by
  have := line_plain (type ++ "----".toList) r '-' (by simp [h.2.2]) (by decide)
  rw [show type ++ ("-----\n".toList ++ r) = type ++ "----".toList ++ ['-'] ++ '\n' :: r by simp, this]
  simp

theorem finish_ok {type c r : Str} {bytes : List Nat} (hl : Spec.Label type) (hd : decodeStd (squeeze c) = some bytes) :
    finish type c (type ++ ("-----\n".toList ++ r)) = some ((type, bytes), r) := by
  have e : type ++ ("-----\n".toList ++ r) = (type ++ "-----".toList) ++ '\n' :: r := by simp
  have n : (type ++ "-----".toList).length = type.length + 5 := by simp
  unfold finish
  rw [label_line _ _ hl, e, ← n, List.take_left, List.drop_left, if_neg (fun h => h rfl), line_empty, if_neg (fun h => h rfl), hd]
  rfl

theorem headers_none {s : Str} (n : Nat) (h0 : s ≠ []) (h : ':' ∉ (getLine s).1) : skipHeaders (n + 1) false s = some (false, s) := by
  rw [skipHeaders, if_neg h0, if_neg h]

theorem attempt_ok {type body t : Str} {bytes : List Nat} (hl : Spec.Label type) (hb : OcspHttp.Spec.Bytes bytes)
    (h : Spec.Body (OcspHttp.Spec.base64 false true bytes) body) :
    attempt ("-----BEGIN ".toList ++ type ++ "-----\n".toList ++ body ++ "-----END ".toList ++ type ++ "-----\n".toList ++ t) =
      .found type bytes t := by
  simp only [List.append_assoc]
  have hbegin : ∀ s, begin? ("-----BEGIN ".toList ++ s) = some s := by
    intro s
    unfold begin?
    rw [if_pos (by simp [List.isPrefixOf])]
    rfl
  have hdec : ∀ c : Str, c.filter (· ≠ '\n') = OcspHttp.Spec.base64 false true bytes → decodeStd (squeeze c) = some bytes := by
    intro c hc
    rw [squeeze_eq hc fun d hd => ⟨(base64_blank _ hb d hd).1, (base64_blank _ hb d hd).2.1, (base64_blank _ hb d hd).2.2.1⟩,
      ← encodeStd_eq _ hb, decodeStd_encode _ hb]
  unfold attempt
  rw [hbegin]
  dsimp only
  rw [label_line _ _ hl]
  dsimp only
  rw [if_pos (by rw [List.isSuffixOf_iff_suffix]; exact List.suffix_append ..),
    show (type ++ "-----".toList).take ((type ++ "-----".toList).length - 5) = type by simp]
  unfold afterType
  rcases body_cases h with ⟨rfl, h2⟩ | ⟨c, rfl, h2⟩
  · rw [List.nil_append, headers_none]
    · dsimp only
      unfold findEnd
      rw [if_pos (by simp [List.isPrefixOf])]
      dsimp only
      rw [show ("-----END ".toList ++ (type ++ ("-----\n".toList ++ t))).drop 9 = type ++ ("-----\n".toList ++ t) from rfl,
        finish_ok hl (hdec [] (by rw [h2]; rfl))]
    · simp
    · intro hm
      rw [show "-----END ".toList ++ (type ++ ("-----\n".toList ++ t)) = ("-----END ".toList ++ type ++ "-----".toList) ++ '\n' :: t by simp] at hm
      have := line_mem _ _ (by simp [hl.2.2]) _ hm
      simp [hl.2.1] at this
  · have hd : '-' ∉ c := by
      intro hm
      rcases body_mem h '-' (by simp [hm]) with e | e
      · exact absurd e (by decide)
      · exact (base64_plain _ hb _ e).1 rfl
    have hcolon : ':' ∉ c := by
      intro hm
      rcases body_mem h ':' (by simp [hm]) with e | e
      · exact absurd e (by decide)
      · exact (base64_blank _ hb _ e).2.2.2 rfl
    rw [headers_none]
    · dsimp only
      unfold findEnd
      have hp : ("-----END ".toList).isPrefixOf (c ++ ['\n'] ++ ("-----END ".toList ++ (type ++ ("-----\n".toList ++ t)))) = false := by
        cases c with
        | nil => rfl
        | cons d c =>
          rw [List.mem_cons, not_or] at hd
          simp [List.isPrefixOf, hd.1]
      rw [if_neg (by rw [hp]; simp),
        show c ++ ['\n'] ++ ("-----END ".toList ++ (type ++ ("-----\n".toList ++ t))) =
          c ++ "\n-----END ".toList ++ (type ++ ("-----\n".toList ++ t)) by simp, cut_end _ _ hd]
      dsimp only
      rw [finish_ok hl (hdec c h2)]
    · simp
    · intro hm
      -- the first line is a part of the body
      have split : ∀ c : Str, ∃ l r, c ++ ['\n'] = l ++ '\n' :: r ∧ '\n' ∉ l ∧ ∀ d ∈ l, d ∈ c := by
        intro c
        induction c with
        | nil => exact ⟨[], [], rfl, by simp, by simp⟩
        | cons d c ih =>
          by_cases e : d = '\n'
          · exact ⟨[], c ++ ['\n'], by rw [e]; rfl, by simp, by simp⟩
          · obtain ⟨l, r, h1, h2, h3⟩ := ih
            refine ⟨d :: l, r, by rw [List.cons_append, h1]; rfl, by simp [h2, Ne.symm e], ?_⟩
            intro x hx
            rcases List.mem_cons.1 hx with rfl | hx
            · exact List.mem_cons_self ..
            · exact List.mem_cons_of_mem _ (h3 x hx)
      obtain ⟨l, r, e1, e2, e3⟩ := split c
      rw [e1, List.append_assoc, List.cons_append] at hm
      exact hcolon (e3 _ (line_mem _ _ e2 _ hm))

/-- C172. What RFC 7468 calls a block is read as it was written, whatever comes after it, and nothing of what comes after is lost. -/
theorem block_read {type body t : Str} {bytes : List Nat} (hl : Spec.Label type) (hb : OcspHttp.Spec.Bytes bytes)
    (h : Spec.Body (OcspHttp.Spec.base64 false true bytes) body) :
    decode ("-----BEGIN ".toList ++ type ++ "-----\n".toList ++ body ++ "-----END ".toList ++ type ++ "-----\n".toList ++ t) =
      some ((type, bytes), t) := by
  unfold decode decodeFuel
  rw [attempt_ok hl hb h]

/-- C172. The loops read all blocks of a file, in their order. -/
theorem file_read {bs : List Spec.Block} {t : Str} (h : Spec.File bs t) (hg : ∀ b ∈ bs, Spec.Label b.1 ∧ OcspHttp.Spec.Bytes b.2)
    (n : Nat) (hn : bs.length < n) : readAll n t = bs := by
  induction h generalizing n with
  | nil =>
    cases n with
    | zero => rfl
    | succ n => rfl
  | @cons type bytes body bs t hb _ ih =>
    cases n with
    | zero => simp at hn
    | succ n =>
      obtain ⟨h1, h2⟩ := hg _ (List.mem_cons_self ..)
      rw [readAll, block_read h1 h2 hb]
      dsimp only
      rw [ih (fun b hb => hg b (List.mem_cons_of_mem _ hb)) n (by simpa using hn)]

/-- C172. Keys, certificates and requests that were written with `pem.Encode` are read back, all of them and in their order. -/
theorem roundtrip {cut : Str → List Str} (hc : Spec.Cuts cut) {bs : List (Str × List Nat)}
    (hg : ∀ b ∈ bs, Spec.Label b.1 ∧ OcspHttp.Spec.Bytes b.2) (n : Nat) (hn : bs.length < n) : readAll n (writeAll cut bs) = bs := by
  refine file_read ?_ hg n hn
  clear hn
  induction bs with
  | nil => exact .nil
  | cons b bs ih =>
    exact block_file hc b.1 (hg b (List.mem_cons_self ..)).2 (ih fun b hb => hg b (List.mem_cons_of_mem _ hb))

theorem label_key : Spec.Label "PRIVATE KEY".toList := by
  unfold Spec.Label
  decide

theorem label_cert : Spec.Label "CERTIFICATE".toList := by
  unfold Spec.Label
  decide

theorem label_ne : ¬ "CERTIFICATE".toList = "PRIVATE KEY".toList := by decide

theorem rootBlock_key {K C : Type} (parseKey : List Nat → Option K) (parseCert : List Nat → Option C) (b : Str × List Nat)
    (s : Option K × Option C) (h : b.1 = "PRIVATE KEY".toList) :
    rootBlock parseKey parseCert b s = (parseKey b.2).map fun k => (some k, s.2) := if_pos h

theorem rootBlock_cert {K C : Type} (parseKey : List Nat → Option K) (parseCert : List Nat → Option C) (b : Str × List Nat)
    (s : Option K × Option C) (h0 : ¬ b.1 = "PRIVATE KEY".toList) (h : b.1 = "CERTIFICATE".toList) :
    rootBlock parseKey parseCert b s = (parseCert b.2).map fun c => (s.1, some c) := by
  unfold rootBlock
  rw [if_neg h0, if_pos h]

theorem block_long (cut : Str → List Str) (type : Str) (bytes : List Nat) : 1 ≤ (encodeBlock cut type bytes).length := by
  unfold encodeBlock
  simp only [List.length_append, show ("-----BEGIN ".toList).length = 11 from rfl]
  omega

/-- C172. The root key and certificate that were saved are found again. -/
theorem root_read {K C : Type} {parseKey : List Nat → Option K} {parseCert : List Nat → Option C} {cut : Str → List Str}
    (hc : Spec.Cuts cut) {key cert : List Nat} (h1 : OcspHttp.Spec.Bytes key) (h2 : OcspHttp.Spec.Bytes cert) :
    readRoot parseKey parseCert (saveRoot cut key cert) =
      (parseKey key).bind fun k => (parseCert cert).map fun c => (k, c) := by
  have hl : 2 ≤ (saveRoot cut key cert).length := by
    have a := block_long cut "PRIVATE KEY".toList key
    have b := block_long cut "CERTIFICATE".toList cert
    simp only [saveRoot, writeAll, List.flatMap_cons, List.flatMap_nil, List.length_append, List.length_nil]
    omega
  have hr := roundtrip hc (bs := [("PRIVATE KEY".toList, key), ("CERTIFICATE".toList, cert)]) (by
    intro b hb
    simp only [List.mem_cons, List.not_mem_nil, or_false] at hb
    rcases hb with rfl | rfl
    · exact ⟨label_key, h1⟩
    · exact ⟨label_cert, h2⟩) ((saveRoot cut key cert).length + 1) (by simp only [List.length_cons, List.length_nil]; omega)
  unfold readRoot
  rw [show readAll ((saveRoot cut key cert).length + 1) (saveRoot cut key cert) = _ from hr]
  have e1 := fun s => rootBlock_key parseKey parseCert ("PRIVATE KEY".toList, key) s rfl
  have e2 := fun s => rootBlock_cert parseKey parseCert ("CERTIFICATE".toList, cert) s label_ne rfl
  rw [rootBlocks, e1]
  cases parseKey key with
  | none => rfl
  | some k =>
    dsimp only [Option.map_some]
    rw [rootBlocks, e2]
    cases parseCert cert with
    | none => rfl
    | some c => rfl

/-- C172. Without a key or without a certificate, a file is refused, whatever else is in it. -/
theorem root_missing {K C : Type} (parseKey : List Nat → Option K) (parseCert : List Nat → Option C) (text : Str) (kc : K × C)
    (h : readRoot parseKey parseCert text = some kc) :
    ∃ bs : List (Str × List Nat), readAll (text.length + 1) text = bs ∧
      (∃ b ∈ bs, b.1 = "PRIVATE KEY".toList ∧ parseKey b.2 = some kc.1) ∧
      (∃ b ∈ bs, b.1 = "CERTIFICATE".toList ∧ parseCert b.2 = some kc.2) := by
  have key : ∀ (bs : List (Str × List Nat)) (s : Option K × Option C) (r : Option K × Option C),
      rootBlocks parseKey parseCert bs s = some r →
      (r.1 = s.1 ∨ ∃ b ∈ bs, b.1 = "PRIVATE KEY".toList ∧ parseKey b.2 = r.1) ∧
      (r.2 = s.2 ∨ ∃ b ∈ bs, b.1 = "CERTIFICATE".toList ∧ parseCert b.2 = r.2) := by
    intro bs
    induction bs with
    | nil =>
      intro s r h
      rw [rootBlocks] at h
      injection h with h
      subst h
      exact ⟨.inl rfl, .inl rfl⟩
    | cons b bs ih =>
      intro s r h
      rw [rootBlocks] at h
      cases hb : rootBlock parseKey parseCert b s with
      | none => rw [hb] at h; cases h
      | some s' =>
        rw [hb] at h
        obtain ⟨i1, i2⟩ := ih s' r h
        have step : (s'.1 = s.1 ∨ b.1 = "PRIVATE KEY".toList ∧ parseKey b.2 = s'.1) ∧
            (s'.2 = s.2 ∨ b.1 = "CERTIFICATE".toList ∧ parseCert b.2 = s'.2) := by
          unfold rootBlock at hb
          by_cases t1 : b.1 = "PRIVATE KEY".toList
          · rw [if_pos t1] at hb
            cases hk : parseKey b.2 with
            | none => rw [hk] at hb; cases hb
            | some k =>
              rw [hk] at hb
              injection hb with hb
              subst hb
              exact ⟨.inr ⟨t1, rfl⟩, .inl rfl⟩
          · rw [if_neg t1] at hb
            by_cases t2 : b.1 = "CERTIFICATE".toList
            · rw [if_pos t2] at hb
              cases hk : parseCert b.2 with
              | none => rw [hk] at hb; cases hb
              | some k =>
                rw [hk] at hb
                injection hb with hb
                subst hb
                exact ⟨.inl rfl, .inr ⟨t2, rfl⟩⟩
            · rw [if_neg t2] at hb
              injection hb with hb
              subst hb
              exact ⟨.inl rfl, .inl rfl⟩
        constructor
        · rcases i1 with i1 | ⟨x, hx, hy⟩
          · rcases step.1 with e | ⟨e, e'⟩
            · exact .inl (i1.trans e)
            · exact .inr ⟨b, List.mem_cons_self .., e, e'.trans i1.symm⟩
          · exact .inr ⟨x, List.mem_cons_of_mem _ hx, hy⟩
        · rcases i2 with i2 | ⟨x, hx, hy⟩
          · rcases step.2 with e | ⟨e, e'⟩
            · exact .inl (i2.trans e)
            · exact .inr ⟨b, List.mem_cons_self .., e, e'.trans i2.symm⟩
          · exact .inr ⟨x, List.mem_cons_of_mem _ hx, hy⟩
  refine ⟨_, rfl, ?_⟩
  unfold readRoot at h
  cases hr : rootBlocks parseKey parseCert (readAll (text.length + 1) text) (none, none) with
  | none => rw [hr] at h; cases h
  | some r =>
    rw [hr] at h
    obtain ⟨k1, k2⟩ := key _ _ _ hr
    obtain ⟨a, b⟩ := r
    cases a with
    | none => cases b <;> cases h
    | some a =>
      cases b with
      | none => cases h
      | some b =>
        injection h with h
        subst h
        exact ⟨k1.resolve_left (by simp), k2.resolve_left (by simp)⟩

example : readRoot (fun b => some b.length) (fun b => b.head?) (saveRoot (fun s => [s]) [1, 2, 3] [7, 8]) = some (3, 7) := by
  decide +kernel

/-- The labels in use. -/
example : ∀ s ∈ ["CERTIFICATE", "PRIVATE KEY", "EC PRIVATE KEY", "CERTIFICATE REQUEST", "X509 CRL"], Spec.Label s.toList := by
  unfold Spec.Label
  decide

example : readAll 3 (writeAll (fun s => [s]) [("PRIVATE KEY".toList, List.replicate 50 255), ("CERTIFICATE".toList, [])]) =
    [("PRIVATE KEY".toList, List.replicate 50 255), ("CERTIFICATE".toList, [])] := by decide +kernel

/-- Text before a block is skipped, and so is a block with a wrong end. -/
example : decode "x\n-----BEGIN A-----\nMAA=\n-----END B-----\n-----BEGIN C-----\nMAA=\n-----END C-----".toList =
    some (("C".toList, [48, 0]), []) := by decide +kernel

end Verif.Pem
