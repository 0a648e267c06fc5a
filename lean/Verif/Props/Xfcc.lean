import Verif.Model.Xfcc
/-
C32: what a reader of the X-Forwarded-Client-Cert header can recover.
-/
namespace Verif.Xfcc

/-! ## A reader of the header -/

/-- Undo backslash escapes. -/
def Spec.unescape : Str → Str
  | '\\' :: c :: t => c :: Spec.unescape t
  | c :: t => c :: Spec.unescape t
  | [] => []

/-- Read a quoted value (after the opening quote): the text up to the next quote that is not
escaped, and what follows it. -/
def Spec.readQuoted : Str → Option (Str × Str)
  | [] => none
  | '"' :: t => some ([], t)
  | '\\' :: c :: t => (Spec.readQuoted t).map fun r => ('\\' :: c :: r.1, r.2)
  | c :: t => (Spec.readQuoted t).map fun r => (c :: r.1, r.2)

/-- Read a value: quoted, or up to the next separator. -/
def Spec.readValue : Str → Option (Str × Str)
  | '"' :: t => (Spec.readQuoted t).map fun r => (Spec.unescape r.1, r.2)
  | s => some (Spec.unescape (s.takeWhile fun c => c ≠ ';' ∧ c ≠ ','),
      s.dropWhile fun c => c ≠ ';' ∧ c ≠ ',')

/-- Read `n` fields, separated by ';', up to the end of the text. -/
def Spec.readFields : Nat → Str → Option (List (Str × Str))
  | 0, _ => none
  | n + 1, s =>
    let key := s.takeWhile (· ≠ '=')
    match s.dropWhile (· ≠ '=') with
    | '=' :: t =>
      match Spec.readValue t with
      | some (v, []) => some [(key, v)]
      | some (v, ';' :: t') => (Spec.readFields n t').map ((key, v) :: ·)
      | _ => none
    | _ => none

/-- A whole header. -/
def Spec.read (s : Str) : Option (List (Str × Str)) := Spec.readFields (s.length + 1) s

/-! ## Round trip -/

/-- Escaped text: made of plain characters and escape pairs. -/
def esc1 (c : Char) : Str := if c = '\\' then ['\\', '\\'] else if c = '"' then ['\\', '"'] else [c]

theorem escape_eq (s : Str) :
    replaceAll '"' ['\\', '"'] (replaceAll '\\' ['\\', '\\'] s) = s.flatMap esc1 := by
  unfold replaceAll
  rw [List.flatMap_assoc]
  congr 1
  funext c
  unfold esc1
  by_cases h : c = '\\'
  · simp [h]
  · by_cases h2 : c = '"' <;> simp [h, h2]

theorem unescape_esc (s : Str) : Spec.unescape (s.flatMap esc1) = s := by
  induction s with
  | nil => rfl
  | cons c t ih =>
    rw [List.flatMap_cons]
    generalize List.flatMap esc1 t = e at *
    unfold esc1
    split
    · rename_i h; subst h; simp [Spec.unescape, ih]
    · split
      · rename_i h; subst h; simp [Spec.unescape, ih]
      · rename_i h _
        rw [List.singleton_append]
        rw [Spec.unescape, ih]
        intro c' t' e
        exact absurd e h

theorem readQuoted_esc (s rest : Str) :
    Spec.readQuoted (s.flatMap esc1 ++ '"' :: rest) = some (s.flatMap esc1, rest) := by
  induction s with
  | nil => rfl
  | cons c t ih =>
    rw [List.flatMap_cons]
    generalize List.flatMap esc1 t = e at *
    unfold esc1
    split
    · simp [Spec.readQuoted, ih]
    · split
      · simp [Spec.readQuoted, ih]
      · rename_i h1 h2
        rw [List.singleton_append, List.cons_append, Spec.readQuoted, ih]
        · rfl
        · intro e; exact h2 e
        · intro _ _ e; exact absurd e h1

theorem esc_mem {c : Char} {s : Str} (hc : c ≠ '\\' ∧ c ≠ '"') : c ∈ s.flatMap esc1 ↔ c ∈ s := by
  rw [List.mem_flatMap]
  constructor
  · rintro ⟨x, hx, h⟩
    unfold esc1 at h
    split at h
    · simp [hc.1] at h
    · split at h
      · simp [hc.1, hc.2] at h
      · simp at h; subst h; exact hx
  · intro h
    refine ⟨c, h, ?_⟩
    unfold esc1
    rw [if_neg hc.1, if_neg hc.2]; simp

theorem esc_head (s : Str) : (s.flatMap esc1).head? ≠ some '"' := by
  cases s with
  | nil => simp
  | cons c t =>
    rw [List.flatMap_cons]
    generalize List.flatMap esc1 t = e at *
    unfold esc1
    split
    · simp
    · split
      · simp
      · rename_i h; simp [h]

/-- Reading back one encoded value, whatever it contains. -/
theorem readValue_encode (s rest : Str) (hr : rest = [] ∨ rest.head? = some ';') :
    Spec.readValue (encode s ++ rest) = some (s, rest) := by
  unfold encode
  dsimp only
  rw [escape_eq]
  split
  · rw [List.cons_append, List.append_assoc, List.singleton_append, Spec.readValue, readQuoted_esc]
    simp [unescape_esc]
  · rename_i h
    have hno : ∀ c ∈ s.flatMap esc1, c ≠ ';' ∧ c ≠ ',' := by
      intro c hc
      simp only [List.any_eq_true, decide_eq_true_eq, not_exists, not_and, not_or] at h
      exact ⟨(h c hc).2.1, (h c hc).1⟩
    have htake : ∀ l : Str, (∀ c ∈ l, c ≠ ';' ∧ c ≠ ',') →
        (l ++ rest).takeWhile (fun c => decide (c ≠ ';' ∧ c ≠ ',')) = l ∧
        (l ++ rest).dropWhile (fun c => decide (c ≠ ';' ∧ c ≠ ',')) = rest := by
      intro l hl
      induction l with
      | nil =>
        rcases hr with rfl | hr
        · simp
        · cases rest with
          | nil => simp
          | cons a b => simp at hr; subst hr; simp
      | cons a b ih =>
        have ha := hl a (by simp)
        have ih := ih (fun c hc => hl c (List.mem_cons_of_mem _ hc))
        rw [List.cons_append, List.takeWhile_cons, List.dropWhile_cons, if_pos (by simpa using ha), if_pos (by simpa using ha)]
        exact ⟨by rw [ih.1], ih.2⟩
    have hh := esc_head s
    rw [Spec.readValue]
    · rw [(htake _ hno).1, (htake _ hno).2, unescape_esc]
    · intro t e
      cases hx : s.flatMap esc1 with
      | nil =>
        rw [hx, List.nil_append] at e
        rcases hr with rfl | hr
        · cases e
        · rw [e] at hr; simp at hr
      | cons a b =>
        rw [hx] at e hh
        simp at e hh
        exact hh e.1

theorem key_split (k v : Str) (h : '=' ∉ k) :
    (k ++ '=' :: v).takeWhile (· ≠ '=') = k ∧ (k ++ '=' :: v).dropWhile (· ≠ '=') = '=' :: v := by
  induction k with
  | nil => simp
  | cons x t ih =>
    simp only [List.mem_cons, not_or] at h
    have hx : x ≠ '=' := fun e => h.1 e.symm
    have ih := ih h.2
    rw [List.cons_append, List.takeWhile_cons, List.dropWhile_cons, if_pos (by simpa using hx), if_pos (by simpa using hx)]
    exact ⟨by rw [ih.1], ih.2⟩

theorem readFields_step (n : Nat) (k t : Str) (hk : '=' ∉ k) :
    Spec.readFields (n + 1) (k ++ '=' :: t) = match Spec.readValue t with
      | some (v, []) => some [(k, v)]
      | some (v, ';' :: t') => (Spec.readFields n t').map ((k, v) :: ·)
      | _ => none := by
  rw [Spec.readFields, (key_split k _ hk).1, (key_split k _ hk).2]
  rfl

theorem readFields_header (fs : List (Str × Str)) (hne : fs ≠ []) (hk : ∀ f ∈ fs, '=' ∉ f.1) :
    ∀ n, fs.length ≤ n →
      Spec.readFields n (header (fs.map fun f => (f.1, encode f.2))) = some fs := by
  induction fs with
  | nil => exact absurd rfl hne
  | cons f t ih =>
    intro n hn
    cases n with
    | zero => simp at hn
    | succ n =>
      obtain ⟨k, v⟩ := f
      have hk1 : '=' ∉ k := hk (k, v) (by simp)
      cases t with
      | nil =>
        have e : header (List.map (fun f => (f.1, encode f.2)) [(k, v)]) = k ++ '=' :: encode v := by
          simp [header, List.intercalate]
        rw [e, readFields_step n k _ hk1]
        have := readValue_encode v [] (.inl rfl)
        rw [List.append_nil] at this
        rw [this]
      | cons g t =>
        have e : header (List.map (fun f => (f.1, encode f.2)) ((k, v) :: g :: t)) =
            k ++ '=' :: (encode v ++ ';' :: header (List.map (fun f => (f.1, encode f.2)) (g :: t))) := by
          simp only [header, List.map_cons]
          rw [List.intercalate_cons_of_ne_nil (by simp)]
          simp
        rw [e, readFields_step n k _ hk1]
        rw [readValue_encode v _ (.inr rfl)]
        change Option.map _ (Spec.readFields n _) = _
        rw [ih (by simp) (fun f hf => hk f (List.mem_cons_of_mem _ hf)) n (by simpa using hn)]
        rfl

theorem header_length (fs : List (Str × Str)) : fs.length ≤ (header fs).length + 1 := by
  induction fs with
  | nil => simp
  | cons f t ih =>
    cases t with
    | nil => simp
    | cons g t =>
      have e : header (f :: g :: t) = (f.1 ++ '=' :: f.2) ++ ';' :: header (g :: t) := by
        simp only [header, List.map_cons]
        rw [List.intercalate_cons_of_ne_nil (by simp)]
        simp
      rw [e]
      simp only [List.length_append, List.length_cons] at *
      omega

/-- C32, the header as a whole. Whatever the values are, a reader recovers exactly the list of
fields with their values, so no value can add a field or change another one. -/
theorem header_roundtrip (fs : List (Str × Str)) (hne : fs ≠ []) (hk : ∀ f ∈ fs, '=' ∉ f.1) :
    Spec.read (header (fs.map fun f => (f.1, encode f.2))) = some fs := by
  unfold Spec.read
  apply readFields_header fs hne hk
  have := header_length (fs.map fun f => (f.1, encode f.2))
  simpa using this

/-- The raw value of each field: what is given to `encodeXFCC`. -/
def Spec.raw (qe : Str → Str) (c : Cert) (which : List String) : List (Str × Str) :=
  which.flatMap fun f =>
    if f = "cert" then [("Cert".toList, qe c.pem)]
    else if f = "chain" then c.chains.map fun x => ("Chain".toList, qe x)
    else if f = "hash" then [("Hash".toList, c.hash)]
    else if f = "subject" then
      [("Subject".toList, '/' :: List.intercalate ['/'] (subjectParts c.subject false []))]
    else if f = "uri" then c.uris.map fun x => ("URI".toList, qe x)
    else if f = "dns" then c.dns.map fun x => ("DNS".toList, qe x)
    else []

theorem fields_raw (qe : Str → Str) (c : Cert) (which : List String) :
    fields qe c which = (Spec.raw qe c which).map fun f => (f.1, encode f.2) := by
  unfold fields Spec.raw
  rw [List.map_flatMap]
  congr 1
  funext f
  split
  · rfl
  split
  · simp
  split
  · rfl
  split
  · rfl
  split
  · simp
  split
  · simp
  · rfl

theorem raw_keys (qe : Str → Str) (c : Cert) (which : List String) :
    ∀ f ∈ Spec.raw qe c which, '=' ∉ f.1 := by
  intro f hf
  unfold Spec.raw at hf
  rw [List.mem_flatMap] at hf
  obtain ⟨w, _, hf⟩ := hf
  split at hf
  · simp at hf; subst hf; simp
  split at hf
  · simp at hf; obtain ⟨x, _, rfl⟩ := hf; simp
  split at hf
  · simp at hf; subst hf; simp
  split at hf
  · simp at hf; subst hf; simp
  split at hf
  · simp at hf; obtain ⟨x, _, rfl⟩ := hf; simp
  split at hf
  · simp at hf; obtain ⟨x, _, rfl⟩ := hf; simp
  · cases hf

/-- C32 for the generated header: equal headers for two certificates mean equal fields, before
encoding. (For the subject this is the subject with its commas turned into slashes.) -/
theorem header_unambiguous (qe : Str → Str) (c1 c2 : Cert) (w1 w2 : List String)
    (h1 : Spec.raw qe c1 w1 ≠ []) (h2 : Spec.raw qe c2 w2 ≠ [])
    (h : header (fields qe c1 w1) = header (fields qe c2 w2)) :
    Spec.raw qe c1 w1 = Spec.raw qe c2 w2 := by
  rw [fields_raw, fields_raw] at h
  have e1 := header_roundtrip _ h1 (raw_keys qe c1 w1)
  have e2 := header_roundtrip _ h2 (raw_keys qe c2 w2)
  rw [h, e2] at e1
  exact (Option.some.inj e1).symm

/-- Encoded values are read back. -/
theorem encode_injective (a b : Str) (h : encode a = encode b) : a = b := by
  have e1 := readValue_encode a [] (.inl rfl)
  have e2 := readValue_encode b [] (.inl rfl)
  rw [h, e2] at e1
  simp at e1; exact e1.symm

/-- Commas that are not escaped become slashes. -/
def Spec.slashed : Str → Bool → Str
  | [], _ => []
  | r :: t, esc =>
    if r = ',' ∧ ¬ esc then '/' :: Spec.slashed t false
    else r :: Spec.slashed t (!esc && r = '\\')

theorem join_parts (s : Str) (esc : Bool) (cur : Str)
    (hlast : s.getLast? ≠ some ',') (hne : s ≠ [] ∨ cur ≠ []) :
    List.intercalate ['/'] (subjectParts s esc cur) = cur ++ Spec.slashed s esc ∧
      subjectParts s esc cur ≠ [] := by
  induction s generalizing esc cur with
  | nil =>
    have hc : cur ≠ [] := by rcases hne with h | h; exact absurd rfl h; exact h
    simp [subjectParts, hc, Spec.slashed]
  | cons r t ih =>
    unfold subjectParts Spec.slashed
    by_cases hr : r = ',' ∧ ¬ esc
    · rw [if_pos hr, if_pos hr]
      have ht : t ≠ [] := by
        intro e; subst e; simp [hr.1] at hlast
      have hl : t.getLast? ≠ some ',' := by
        rw [List.getLast?_cons_of_ne_nil ht] at hlast
        exact hlast
      have := ih false [] hl (.inl ht)
      refine ⟨?_, by simp⟩
      rw [List.intercalate_cons_of_ne_nil this.2, this.1]
      simp
    · rw [if_neg hr, if_neg hr]
      by_cases ht : t = []
      · subst ht
        simp [subjectParts, Spec.slashed]
      · have hl : t.getLast? ≠ some ',' := by
          rw [List.getLast?_cons_of_ne_nil ht] at hlast
          exact hlast
        have := ih (!esc && r = '\\') (cur ++ [r]) hl (.inl ht)
        refine ⟨?_, this.2⟩
        rw [this.1]; simp

theorem unslash (s : Str) (esc : Bool) (h : '/' ∉ s) :
    (Spec.slashed s esc).map (fun c => if c = '/' then ',' else c) = s := by
  induction s generalizing esc with
  | nil => rfl
  | cons r t ih =>
    simp only [List.mem_cons, not_or] at h
    unfold Spec.slashed
    split
    · rename_i hr; simp [ih _ h.2, hr.1]
    · have : r ≠ '/' := fun e => h.1 e.symm
      simp [ih _ h.2, this]

/-- C32, the subject, in part: two subjects without '/' that are not empty and do not end with a
comma are distinguished by the header. What is missing: subjects with '/'
(`subject_slash_violated`). -/
theorem subject_injective_partial (a b : Str) (ha : '/' ∉ a) (hb : '/' ∉ b) (hna : a ≠ []) (hnb : b ≠ [])
    (hla : a.getLast? ≠ some ',') (hlb : b.getLast? ≠ some ',')
    (h : encodeSubject a = encodeSubject b) : a = b := by
  have e := encode_injective _ _ h
  rw [(join_parts a false [] hla (.inl hna)).1, (join_parts b false [] hlb (.inl hnb)).1] at e
  simp only [List.nil_append, List.cons.injEq, true_and] at e
  rw [← unslash a false ha, ← unslash b false hb, e]

/-- C32 fails for subjects with '/': the common name "x/O=y" and the common name "x" in the
organisation "y" give the same header. -/
theorem subject_slash_violated :
    ∃ a b : Str, a = "CN=x/O=y".toList ∧ b = "CN=x,O=y".toList ∧ a ≠ b ∧ encodeSubject a = encodeSubject b := by
  refine ⟨_, _, rfl, rfl, by decide, by decide⟩

/-- Non-vacuity: values with all special characters. -/
example :
    let fs : List (Str × Str) := [("Hash".toList, "ab".toList), ("Subject".toList, "/CN=a\";,=\\".toList), ("DNS".toList, "\"q".toList)]
    fs ≠ [] ∧ (∀ f ∈ fs, '=' ∉ f.1) ∧
    header (fs.map fun f => (f.1, encode f.2)) = "Hash=ab;Subject=\"/CN=a\\\";,=\\\\\";DNS=\\\"q".toList ∧
    encodeSubject "O=Org\\,org=\\,org=,CN=foo".toList = "\"/O=Org\\\\,org=\\\\,org=/CN=foo\"".toList := by
  decide

/-- Non-vacuity of `header_unambiguous`. -/
example : Spec.raw id { dns := ["a".toList, "b".toList] } ["dns", "hash"] =
    [("DNS".toList, "a".toList), ("DNS".toList, "b".toList), ("Hash".toList, [])] := by decide

end Verif.Xfcc
