import Verif.Model.Pem
import Verif.Props.OcspHttp
/-!
# C171: the PEM files of the certificate authority hold exactly what they should
-/
namespace Verif.Pem

open Verif.Path (Str)

/-! ## Specification: RFC 7468, with base64 by RFC 4648 -/

namespace Spec

/-- `Body text lines`: the text in lines of 64 characters, the last one of 64 at most. -/
inductive Body : Str → Str → Prop
  | done : Body [] []
  | last {l} : l ≠ [] → l.length ≤ 64 → '\n' ∉ l → Body l (l ++ ['\n'])
  | full {l t u} : l.length = 64 → '\n' ∉ l → Body t u → Body (l ++ t) (l ++ '\n' :: u)

/-- A label and its bytes. -/
abbrev Block := Str × List Nat

/-- The text is exactly these blocks, one after the other, with nothing between them. -/
inductive File : List Block → Str → Prop
  | nil : File [] []
  | cons {type bytes body bs t} : Body (OcspHttp.Spec.base64 false true bytes) body → File bs t →
      File ((type, bytes) :: bs)
        ("-----BEGIN ".toList ++ type ++ "-----\n".toList ++ body ++ "-----END ".toList ++ type ++ "-----\n".toList ++ t)

/-- Bytes, and a label without hyphens. -/
def Good (bs : List Block) : Prop := ∀ b ∈ bs, '-' ∉ b.1 ∧ OcspHttp.Spec.Bytes b.2

/-- The length `n` of a DER element is written as these bytes: one byte, or their number and the bytes of the length. -/
inductive Length : List Nat → Nat → Prop
  | short {n} : n < 128 → Length [n] n
  | long {bytes : List Nat} : Length ((128 + bytes.length) :: bytes) (bytes.foldl (fun a b => 256 * a + b) 0)

/-- The bytes are a single DER element, such as a certificate (RFC 5280, section 4.2.2.1: such a URI "must point to a single DER
encoded certificate" or to a message of CMS, which is a single element too). -/
def Single (s : List Nat) : Prop :=
  ∃ tag len content, s = tag :: len ++ content ∧ Length len content.length

/-- The pieces make up the text. -/
def Cuts (cut : Str → List Str) : Prop := ∀ s, (cut s).flatten = s

end Spec

/-! ## Base64 -/

theorem stdDigit_fin : ∀ n : Fin 64, stdDigit n = OcspHttp.Spec.letter false n := by decide +kernel

theorem stdDigit_eq {a b : Nat} (h : a % 64 = b) : stdDigit a = OcspHttp.Spec.letter false b := by
  have hb : b < 64 := by omega
  have := stdDigit_fin ⟨b, hb⟩
  dsimp only at this
  rw [← this]
  unfold stdDigit
  rw [h, Nat.mod_eq_of_lt hb]

theorem encodeStd_eq (l : List Nat) (h : OcspHttp.Spec.Bytes l) : encodeStd l = OcspHttp.Spec.base64 false true l := by
  unfold OcspHttp.Spec.base64
  rw [if_pos rfl]
  induction l using encodeStd.induct with
  | case1 => rfl
  | case2 a =>
    have := h a (by simp)
    simp only [encodeStd, OcspHttp.Spec.sextets, List.map_cons, List.map_nil]
    rw [stdDigit_eq (a := a * 65536 / 262144) (b := a / 4) (by omega),
      stdDigit_eq (a := a * 65536 / 4096) (b := a % 4 * 16) (by omega)]
    rfl
  | case3 a b =>
    have := h a (by simp)
    have := h b (by simp)
    simp only [encodeStd, OcspHttp.Spec.sextets, List.map_cons, List.map_nil]
    rw [stdDigit_eq (a := (a * 65536 + b * 256) / 262144) (b := a / 4) (by omega),
      stdDigit_eq (a := (a * 65536 + b * 256) / 4096) (b := a % 4 * 16 + b / 16) (by omega),
      stdDigit_eq (a := (a * 65536 + b * 256) / 64) (b := b % 16 * 4) (by omega)]
    rfl
  | case4 a b c t ih =>
    have := h a (by simp)
    have := h b (by simp)
    have := h c (by simp)
    simp only [encodeStd, OcspHttp.Spec.sextets, List.map_cons, List.cons_append, List.nil_append, List.length_cons]
    rw [stdDigit_eq (a := (a * 65536 + b * 256 + c) / 262144) (b := a / 4) (by omega),
      stdDigit_eq (a := (a * 65536 + b * 256 + c) / 4096) (b := a % 4 * 16 + b / 16) (by omega),
      stdDigit_eq (a := (a * 65536 + b * 256 + c) / 64) (b := b % 16 * 4 + c / 64) (by omega),
      stdDigit_eq (a := a * 65536 + b * 256 + c) (b := c % 64) (by omega),
      ih (fun b hb => h b (by simp [hb])), show (t.length + 1 + 1 + 1) % 3 = t.length % 3 by omega]

theorem letter_plain : ∀ n : Fin 64, OcspHttp.Spec.letter false n ≠ '-' ∧ OcspHttp.Spec.letter false n ≠ '\n' := by decide +kernel

/-- Neither hyphens nor line breaks are in base64 text. -/
theorem base64_plain (l : List Nat) (h : OcspHttp.Spec.Bytes l) :
    ∀ c ∈ OcspHttp.Spec.base64 false true l, c ≠ '-' ∧ c ≠ '\n' := by
  intro c hc
  unfold OcspHttp.Spec.base64 at hc
  rcases List.mem_append.mp hc with h1 | h1
  · obtain ⟨n, hn, rfl⟩ := List.mem_map.mp h1
    exact letter_plain ⟨n, OcspHttp.sextets_lt l h n hn⟩
  · rw [if_pos rfl] at h1
    rw [List.eq_of_mem_replicate h1]
    decide

/-- Base64 text determines the bytes. -/
theorem base64_decodes (l : List Nat) (hb : OcspHttp.Spec.Bytes l) :
    OcspHttp.decode64 (OcspHttp.trimPad ((OcspHttp.Spec.base64 false true l).map OcspHttp.translate)) = some l := by
  have hlt := OcspHttp.sextets_lt l hb
  have ht : OcspHttp.trimPad ((OcspHttp.Spec.base64 false true l).map OcspHttp.translate) =
      ((OcspHttp.Spec.sextets l).map (OcspHttp.Spec.letter false)).map OcspHttp.translate := by
    unfold OcspHttp.Spec.base64
    rw [List.map_append]
    have h1 : ∀ c ∈ ((OcspHttp.Spec.sextets l).map (OcspHttp.Spec.letter false)).map OcspHttp.translate, c ≠ '=' := by
      intro c hc
      simp only [List.map_map, List.mem_map, Function.comp] at hc
      obtain ⟨n, hn, rfl⟩ := hc
      exact (OcspHttp.letter_ok false (hlt n hn)).2.1
    have he : OcspHttp.translate '=' = '=' := by decide
    rw [if_pos rfl, List.map_replicate, he]
    exact OcspHttp.trimPad_append _ h1
  rw [ht, OcspHttp.decode_letters false _ hlt, OcspHttp.groups_sextets l hb]

theorem base64_inj {l l' : List Nat} (h : OcspHttp.Spec.Bytes l) (h' : OcspHttp.Spec.Bytes l')
    (e : OcspHttp.Spec.base64 false true l = OcspHttp.Spec.base64 false true l') : l = l' := by
  have h1 := base64_decodes l h
  rw [e, base64_decodes l' h'] at h1
  injection h1 with h1
  exact h1.symm

/-! ## Lines -/

/-- Full lines only. -/
inductive Full : Str → Str → Prop
  | nil : Full [] []
  | snoc {t u l} : Full t u → l.length = 64 → Full (t ++ l) (u ++ l ++ ['\n'])

/-- What the line breaker holds after it was given the text. -/
structure Holds (s : Breaker) (t : Str) : Prop where
  full : ∃ f, Full f s.out ∧ t = f ++ s.line
  short : s.line.length < 64

theorem write_holds (b : Str) (s : Breaker) (t : Str) (h : Holds s t) : Holds (s.write b) (t ++ b) := by
  induction s, b using Breaker.write.induct generalizing t with
  | case1 s b hs =>
    rw [Breaker.write, if_pos hs]
    obtain ⟨f, h1, h2⟩ := h.full
    exact ⟨⟨f, h1, by rw [h2, List.append_assoc]⟩, by rw [List.length_append]; exact hs⟩
  | case2 s b hs ih =>
    rw [Breaker.write, if_neg hs]
    obtain ⟨f, h1, h2⟩ := h.full
    have hl := h.short
    have key := ih (t ++ b.take (64 - s.line.length)) ⟨⟨t ++ b.take (64 - s.line.length), ?_, by simp⟩, by simp⟩
    · rw [List.append_assoc t, List.take_append_drop] at key
      exact key
    · have := Full.snoc (l := s.line ++ b.take (64 - s.line.length)) h1 (by
        rw [List.length_append, List.length_take]; omega)
      rw [h2]
      simpa [List.append_assoc] using this

theorem writes_hold (ps : List Str) (s : Breaker) (t : Str) (h : Holds s t) :
    Holds (ps.foldl Breaker.write s) (t ++ ps.flatten) := by
  induction ps generalizing s t with
  | nil => simpa using h
  | cons p ps ih =>
    rw [List.foldl_cons, List.flatten_cons, ← List.append_assoc]
    exact ih _ _ (write_holds p s t h)

theorem full_body {f u t v : Str} (h : Full f u) (hf : '\n' ∉ f) (hb : Spec.Body t v) : Spec.Body (f ++ t) (u ++ v) := by
  induction h generalizing t v with
  | nil => exact hb
  | @snoc f u l h hl ih =>
    rw [List.mem_append, not_or] at hf
    have := ih hf.1 (Spec.Body.full hl hf.2 hb)
    simpa [List.append_assoc] using this

theorem close_body (s : Breaker) (t : Str) (h : Holds s t) (ht : '\n' ∉ t) : Spec.Body t s.close := by
  obtain ⟨f, h1, h2⟩ := h.full
  have hs := h.short
  rw [h2] at ht ⊢
  rw [List.mem_append, not_or] at ht
  unfold Breaker.close
  by_cases hl : s.line.length > 0
  · rw [if_pos hl, List.append_assoc]
    exact full_body h1 ht.1 (.last (by intro e; rw [e] at hl; simp at hl) (by omega) ht.2)
  · rw [if_neg hl]
    have e : s.line = [] := List.eq_nil_of_length_eq_zero (by omega)
    have := full_body h1 ht.1 .done
    rw [e]
    simpa using this

/-! ## Files -/

theorem block_file {cut : Str → List Str} (hc : Spec.Cuts cut) (type : Str) {bytes : List Nat} (hb : OcspHttp.Spec.Bytes bytes)
    {bs : List Spec.Block} {t : Str} (h : Spec.File bs t) :
    Spec.File ((type, bytes) :: bs) (encodeBlock cut type bytes ++ t) := by
  refine Spec.File.cons ?_ h
  have h1 := writes_hold (cut (encodeStd bytes)) {} [] ⟨⟨[], .nil, rfl⟩, by decide⟩
  rw [hc, List.nil_append, encodeStd_eq _ hb] at h1
  rw [encodeStd_eq _ hb]
  exact close_body _ _ h1 fun hm => (base64_plain _ hb _ hm).2 rfl

theorem file_append {bs bs' : List Spec.Block} {t t' : Str} (h : Spec.File bs t) (h' : Spec.File bs' t') :
    Spec.File (bs ++ bs') (t ++ t') := by
  induction h with
  | nil => exact h'
  | cons hb _ ih =>
    rw [List.cons_append, List.append_assoc]
    exact .cons hb ih

/-- C171. The file with the certificates of the authority has its own certificate first and then those of its delegates, in their
order, and nothing else, however the encoder cuts its text. -/
theorem ca_file {cut : Str → List Str} (hc : Spec.Cuts cut) {ca : List Nat} {delegates : List (List Nat)}
    (hb : ∀ c ∈ ca :: delegates, OcspHttp.Spec.Bytes c) :
    Spec.File ((ca :: delegates).map fun c => ("CERTIFICATE".toList, c)) (caFile cut ca delegates) := by
  have one : ∀ c, OcspHttp.Spec.Bytes c → Spec.File [("CERTIFICATE".toList, c)] (certPem cut c) := by
    intro c h
    have := block_file hc "CERTIFICATE".toList h .nil
    rw [List.append_nil] at this
    exact this
  have all : ∀ (ds : List (List Nat)) (bs : List Spec.Block) (t : Str), (∀ c ∈ ds, OcspHttp.Spec.Bytes c) → Spec.File bs t →
      Spec.File (bs ++ ds.map fun c => ("CERTIFICATE".toList, c)) (ds.foldl (fun out c => out ++ certPem cut c) t) := by
    intro ds
    induction ds with
    | nil =>
      intro bs t _ h
      rw [List.map_nil, List.append_nil]
      exact h
    | cons d ds ih =>
      intro bs t hd h
      have := ih _ _ (fun c hc => hd c (by simp [hc])) (file_append h (one d (hd d (by simp))))
      rw [List.append_assoc] at this
      exact this
  exact all delegates _ _ (fun c hc => hb c (by simp [hc])) (one ca (hb ca (by simp)))

/-- C171. The file with the revocation list has the certificate that the list is signed with, and the list; there is a file when
there is a list. -/
theorem crl_file {cut : Str → List Str} (hc : Spec.Cuts cut) {cert crl : List Nat} (h1 : OcspHttp.Spec.Bytes cert)
    (h2 : OcspHttp.Spec.Bytes crl) :
    crlFile cut none = none ∧ ∃ t, crlFile cut (some (cert, crl)) = some t ∧
      Spec.File [("CERTIFICATE".toList, cert), ("X509 CRL".toList, crl)] t := by
  refine ⟨rfl, _, rfl, ?_⟩
  have := block_file hc "X509 CRL".toList h2 .nil
  rw [List.append_nil] at this
  exact block_file hc _ h1 this

/-! ## Reading -/

theorem split_unique {a b x y : Str} (ha : '-' ∉ a) (hb : '-' ∉ b) (h : a ++ '-' :: x = b ++ '-' :: y) : a = b ∧ x = y := by
  induction a generalizing b with
  | nil =>
    cases b with
    | nil => exact ⟨rfl, by simpa using h⟩
    | cons c b =>
      simp only [List.nil_append, List.cons_append, List.cons.injEq] at h
      exact absurd (h.1 ▸ List.mem_cons_self ..) hb
  | cons d a ih =>
    cases b with
    | nil =>
      simp only [List.nil_append, List.cons_append, List.cons.injEq] at h
      exact absurd (h.1 ▸ List.mem_cons_self ..) ha
    | cons c b =>
      simp only [List.cons_append, List.cons.injEq] at h
      obtain ⟨e1, e2⟩ := ih (fun hm => ha (by simp [hm])) (fun hm => hb (by simp [hm])) h.2
      exact ⟨by rw [h.1, e1], e2⟩

theorem body_text {t u : Str} (h : Spec.Body t u) : u.filter (· ≠ '\n') = t ∧ ('-' ∉ t → '-' ∉ u) := by
  have keep : ∀ l : Str, '\n' ∉ l → l.filter (· ≠ '\n') = l := by
    intro l hl
    rw [List.filter_eq_self]
    intro c hc
    rw [decide_eq_true_eq]
    rintro rfl
    exact hl hc
  induction h with
  | done => exact ⟨rfl, fun h => h⟩
  | last _ _ hn =>
    refine ⟨?_, fun h => ?_⟩
    · rw [List.filter_append, keep _ hn]
      exact List.append_nil _
    · simp [h]
  | full _ hn _ ih =>
    refine ⟨?_, fun h => ?_⟩
    · rw [List.filter_append, keep _ hn, List.filter_cons_of_neg (by decide), ih.1]
    · rw [List.mem_append, not_or] at h
      simp [h.1, ih.2 h.2]

/-- C171. Such a file can be read in one way only: the text determines the labels and the bytes. -/
theorem read_once {bs bs' : List Spec.Block} {t : Str} (h : Spec.File bs t) (h' : Spec.File bs' t) (g : Spec.Good bs)
    (g' : Spec.Good bs') : bs = bs' := by
  induction h generalizing bs' with
  | nil =>
    generalize ht : ([] : Str) = t at h'
    cases h' with
    | nil => rfl
    | cons => simp at ht
  | @cons type bytes body bs t hb hf ih =>
    generalize ht : "-----BEGIN ".toList ++ type ++ "-----\n".toList ++ body ++ "-----END ".toList ++ type ++ "-----\n".toList ++ t = u at h'
    cases h' with
    | nil => simp at ht
    | @cons type' bytes' body' bs' t' hb' hf' =>
      obtain ⟨a1, a2⟩ := g _ (List.mem_cons_self ..)
      obtain ⟨a1', a2'⟩ := g' _ (List.mem_cons_self ..)
      have p1 := (body_text hb).2 fun hm => (base64_plain _ a2 _ hm).1 rfl
      have p2 := (body_text hb').2 fun hm => (base64_plain _ a2' _ hm).1 rfl
      simp only [List.append_assoc] at ht
      have ht := List.append_cancel_left ht
      obtain ⟨e1, ht⟩ := split_unique a1 a1' ht
      dsimp only at e1
      have ht : "----\n".toList ++ (body ++ _) = "----\n".toList ++ (body' ++ _) := ht
      have ht := List.append_cancel_left ht
      obtain ⟨e2, ht⟩ := split_unique p1 p2 ht
      have ht : "----END ".toList ++ (type ++ _) = "----END ".toList ++ (type' ++ _) := ht
      have ht := List.append_cancel_left ht
      rw [e1] at ht
      have ht := List.append_cancel_left (List.append_cancel_left ht)
      have e3 : bytes = bytes' := by
        apply base64_inj a2 a2'
        rw [← (body_text hb).1, ← (body_text hb').1, e2]
      subst ht
      rw [e1, e3, ih hf' (fun b hb => g b (List.mem_cons_of_mem _ hb)) (fun b hb => g' b (List.mem_cons_of_mem _ hb))]

/-! ## DER -/

theorem length_unique {len len' x y : List Nat} {n n' : Nat} (h : Spec.Length len n) (h' : Spec.Length len' n')
    (e : len ++ x = len' ++ y) : n = n' ∧ x = y := by
  cases h with
  | short h =>
    cases h' with
    | short h' =>
      simp only [List.cons_append, List.nil_append, List.cons.injEq] at e
      exact e
    | long =>
      simp only [List.cons_append, List.nil_append, List.cons.injEq] at e
      omega
  | long =>
    cases h' with
    | short h' =>
      simp only [List.cons_append, List.nil_append, List.cons.injEq] at e
      omega
    | long =>
      simp only [List.cons_append, List.cons.injEq] at e
      obtain ⟨e1, e2⟩ := List.append_inj e.2 (by omega)
      exact ⟨by rw [e1], e2⟩

theorem single_prefix {s x : List Nat} (h : Spec.Single s) (h' : Spec.Single (s ++ x)) : x = [] := by
  obtain ⟨tag, len, content, rfl, hl⟩ := h
  obtain ⟨tag', len', content', e, hl'⟩ := h'
  simp only [List.cons_append, List.cons.injEq, List.append_assoc] at e
  obtain ⟨e1, e2⟩ := length_unique hl hl' e.2
  have := congrArg List.length e2
  rw [List.length_append] at this
  exact List.eq_nil_of_length_eq_zero (by omega)

theorem caDer_eq (ca : List Nat) (ds : List (List Nat)) : caDer ca ds = ca ++ ds.flatten := by
  unfold caDer
  induction ds generalizing ca with
  | nil => simp
  | cons d ds ih => rw [List.foldl_cons, ih, List.flatten_cons, List.append_assoc]

/-- C171, in part: without delegates, the file in DER form is the certificate. -/
theorem der_partial {ca : List Nat} (h : Spec.Single ca) : caDer ca [] = ca ∧ Spec.Single (caDer ca []) := ⟨rfl, h⟩

/-- C171, violated: with delegates, which there are once the revocation list or OCSP was asked for (pki.go:477, 587), the file in DER form begins with the certificate but is not a single
certificate, nor a single anything. -/
theorem der_violated {ca d : List Nat} {ds : List (List Nat)} (h : Spec.Single ca) (hd : Spec.Single d) :
    (∃ rest, caDer ca (d :: ds) = ca ++ d ++ rest) ∧ ¬ Spec.Single (caDer ca (d :: ds)) := by
  rw [caDer_eq]
  refine ⟨⟨ds.flatten, by simp⟩, fun hs => ?_⟩
  have := single_prefix h hs
  obtain ⟨tag, len, content, rfl, -⟩ := hd
  simp at this

/-- A short element, and one of two hundred bytes. -/
example : Spec.Single [48, 3, 2, 1, 7] ∧ Spec.Single (48 :: [129, 200] ++ List.replicate 200 7) :=
  ⟨⟨48, [3], [2, 1, 7], rfl, .short (by decide)⟩, ⟨48, [129, 200], _, rfl, .long (bytes := [200])⟩⟩

/-- The encoder may cut its text after each character, or not at all. -/
example : Spec.Cuts (fun s => s.map fun c => [c]) ∧ Spec.Cuts (fun s => [s]) := by
  refine ⟨fun s => ?_, fun s => by simp⟩
  induction s with
  | nil => rfl
  | cons c s ih => simpa using ih

example : crlFile (fun s => [s]) (some ([48, 3, 2, 1, 7], [48, 0])) =
    some "-----BEGIN CERTIFICATE-----\nMAMCAQc=\n-----END CERTIFICATE-----\n-----BEGIN X509 CRL-----\nMAA=\n-----END X509 CRL-----\n".toList := by
  decide +kernel

/-- A hundred bytes make two full lines and a third one. -/
example : ((caFile (fun s => s.map fun c => [c]) (List.replicate 100 255) [[1]]).filter (· = '\n')).length = 8 := by decide +kernel

end Verif.Pem
