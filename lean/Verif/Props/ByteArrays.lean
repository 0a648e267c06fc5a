import Verif.Model.ByteArrays
/-!
# C167: byte strings of passkeys arrive as they were sent
-/
namespace Verif.ByteArrays

namespace Spec

def value : Str → Nat
  | [] => 0
  | c :: s => (c.toNat - 48) * 10 ^ s.length + value s

/-- A number in JSON, RFC 8259 section 6, without sign, fraction and exponent: no leading zeros. -/
def Decimal (s : Str) (n : Nat) : Prop :=
  s ≠ [] ∧ (∀ c ∈ s, c.isDigit = true) ∧ (s.head? = some '0' → s.length = 1) ∧ value s = n

/-- Elements with commas in between. -/
inductive Elems : Str → List Nat → Prop
  | one (s n) : Decimal s n → Elems s [n]
  | more (s n t ns) : Decimal s n → Elems t ns → Elems (s ++ ',' :: t) (n :: ns)

/-- An array of numbers in JSON, RFC 8259 section 5. -/
inductive Array : Str → List Nat → Prop
  | empty : Array ['[', ']'] []
  | some (t ns) : Elems t ns → Array ('[' :: (t ++ [']'])) ns

def IsBytes (b : List Nat) : Prop := ∀ x ∈ b, x < 256

end Spec

instance (s : Str) (n : Nat) : Decidable (Spec.Decimal s n) := by unfold Spec.Decimal; infer_instance

/-! ## Joining and splitting -/

theorem splitOn_ne (p : Char → Bool) (s : Str) : splitOn p s ≠ [] := by
  cases s with
  | nil => simp [splitOn]
  | cons c s =>
    unfold splitOn
    split
    · simp
    · split <;> simp

theorem splitOn_free {p : Char → Bool} {a : Str} (h : ∀ c ∈ a, p c = false) : splitOn p a = [a] := by
  induction a with
  | nil => rfl
  | cons c a ih =>
    unfold splitOn
    rw [if_neg (by simp [h c List.mem_cons_self]), ih fun x hx => h x (List.mem_cons_of_mem _ hx)]

theorem splitOn_sep {p : Char → Bool} {a : Str} {c : Char} {b : Str} (h : ∀ c ∈ a, p c = false) (hc : p c = true) :
    splitOn p (a ++ c :: b) = a :: splitOn p b := by
  induction a with
  | nil =>
    show splitOn p (c :: b) = _
    rw [splitOn, if_pos hc]
  | cons x a ih =>
    rw [List.cons_append, splitOn, if_neg (by simp [h x List.mem_cons_self]),
      ih fun y hy => h y (List.mem_cons_of_mem _ hy)]

theorem join_cons (sep : Char) (a : Str) {l : List Str} (h : l ≠ []) : join sep (a :: l) = a ++ sep :: join sep l := by
  cases l with
  | nil => exact absurd rfl h
  | cons b l => rfl

theorem split_join {p : Char → Bool} {sep : Char} (hs : p sep = true) {l : List Str} (hl : l ≠ [])
    (h : ∀ a ∈ l, ∀ c ∈ a, p c = false) : splitOn p (join sep l) = l := by
  induction l with
  | nil => exact absurd rfl hl
  | cons a l ih =>
    have ha := h a List.mem_cons_self
    cases l with
    | nil => exact splitOn_free ha
    | cons b l =>
      show splitOn p (a ++ sep :: join sep (b :: l)) = _
      rw [splitOn_sep ha hs, ih (by simp) fun x hx => h x (List.mem_cons_of_mem _ hx)]

/-- The words, with something after the last one. -/
def addLast (suf : Str) : List Str → List Str
  | [] => [suf]
  | [a] => [a ++ suf]
  | a :: b :: l => a :: addLast suf (b :: l)

theorem addLast_ne (suf : Str) (l : List Str) : addLast suf l ≠ [] := by
  cases l with
  | nil => simp [addLast]
  | cons a l => cases l <;> simp [addLast]

theorem join_addLast (sep : Char) (suf : Str) (l : List Str) : join sep (addLast suf l) = join sep l ++ suf := by
  induction l with
  | nil => rfl
  | cons a l ih =>
    cases l with
    | nil => rfl
    | cons b l =>
      show join sep (a :: addLast suf (b :: l)) = _
      rw [join_cons _ _ (addLast_ne _ _), ih]
      simp [join]

theorem mem_addLast {suf w : Str} {l : List Str} (h : w ∈ addLast suf l) :
    w = suf ∨ ∃ a ∈ l, w = a ∨ w = a ++ suf := by
  induction l with
  | nil => exact .inl (List.mem_singleton.1 h)
  | cons a l ih =>
    cases l with
    | nil => exact .inr ⟨a, List.mem_cons_self, .inr (List.mem_singleton.1 h)⟩
    | cons b l =>
      rcases List.mem_cons.1 h with rfl | h
      · exact .inr ⟨_, List.mem_cons_self, .inl rfl⟩
      · rcases ih h with h | ⟨x, hx, h⟩
        · exact .inl h
        · exact .inr ⟨x, List.mem_cons_of_mem _ hx, h⟩

theorem join_head (sep c : Char) (a : Str) (l : List Str) : join sep ((c :: a) :: l) = c :: join sep (a :: l) := by
  cases l <;> rfl

/-! ## Numbers -/

theorem dec_decimal {n : Nat} (h : n < 256) : Spec.Decimal (dec n) n := by
  have : ∀ n, n < 256 → Spec.Decimal (dec n) n := by decide +kernel
  exact this n h

theorem digit_char {c : Char} (h : c.isDigit = true) : c ≠ ' ' ∧ c ≠ ',' ∧ c ≠ '[' ∧ c ≠ ']' := by
  refine ⟨?_, ?_, ?_, ?_⟩ <;> (rintro rfl; revert h; decide)

theorem decimal_char {s : Str} {n : Nat} (h : Spec.Decimal s n) : ∀ c ∈ s, c ≠ ' ' ∧ c ≠ ',' ∧ c ≠ '[' ∧ c ≠ ']' :=
  fun c hc => digit_char (h.2.1 c hc)

theorem foldl_dec (s : Str) (a : Nat) :
    s.foldl (fun a c => 10 * a + (c.toNat - 48)) a = a * 10 ^ s.length + Spec.value s := by
  induction s generalizing a with
  | nil => simp [Spec.value]
  | cons c s ih =>
    rw [List.foldl_cons, ih, Spec.value, List.length_cons, Nat.pow_succ, Nat.add_mul, Nat.mul_comm 10 a, Nat.mul_assoc,
      Nat.mul_comm 10]
    omega

theorem parseByte_iff (s : Str) (n : Nat) : parseByte s = some n ↔ Spec.Decimal s n ∧ n < 256 := by
  unfold parseByte
  have hv := foldl_dec s 0
  rw [Nat.zero_mul, Nat.zero_add] at hv
  dsimp only
  rw [hv]
  unfold Spec.Decimal
  by_cases h1 : s = []
  · simp [h1]
  by_cases h2 : ∀ c ∈ s, c.isDigit = true
  · by_cases h3 : s.head? = some '0' → s.length = 1
    · rw [if_neg]
      · constructor
        · intro h
          split at h <;> rename_i hlt
          · cases h
            exact ⟨⟨h1, h2, h3, rfl⟩, hlt⟩
          · cases h
        · rintro ⟨⟨-, -, -, rfl⟩, h⟩
          rw [if_pos h]
      · rintro (h | h | ⟨h, h'⟩)
        · exact h1 h
        · obtain ⟨c, hc, hd⟩ := List.any_eq_true.1 h
          rw [h2 c hc] at hd
          cases hd
        · exact h' (h3 h)
    · rw [if_pos]
      · constructor
        · intro h; cases h
        · rintro ⟨⟨-, -, h, -⟩, -⟩
          exact absurd h h3
      · have : s.head? = some '0' ∧ ¬ s.length = 1 := by
          by_cases h : s.head? = some '0'
          · exact ⟨h, fun e => h3 fun _ => e⟩
          · exact absurd (fun e => absurd e h) h3
        exact .inr (.inr this)
  · rw [if_pos]
    · constructor
      · intro h; cases h
      · rintro ⟨⟨-, h, -⟩, -⟩
        exact absurd h h2
    · refine .inr (.inl ?_)
      rw [List.any_eq_true]
      apply Classical.byContradiction
      intro hn
      refine h2 fun c hc => ?_
      cases hd : c.isDigit
      · exact absurd ⟨c, hc, by simp [hd]⟩ hn
      · rfl

/-! ## Arrays -/

theorem elems_join {ns : List Nat} (hn : ns ≠ []) (hb : Spec.IsBytes ns) : Spec.Elems (join ',' (ns.map dec)) ns := by
  induction ns with
  | nil => exact absurd rfl hn
  | cons n ns ih =>
    have hd := dec_decimal (hb n List.mem_cons_self)
    cases ns with
    | nil => exact .one _ _ hd
    | cons m ns => exact .more _ _ _ _ hd (ih (by simp) fun x hx => hb x (List.mem_cons_of_mem _ hx))

theorem stringify_array {b : Bytes} (hb : Spec.IsBytes b) : Spec.Array (stringify b) b := by
  cases b with
  | nil => exact .empty
  | cons n b => exact .some _ _ (elems_join (by simp) hb)

/-- What `MarshalJSON` makes of `%d`. -/
theorem sprintd_join {b : Bytes} (hb : Spec.IsBytes b) : join ',' (fields (sprintd b)) = stringify b := by
  have hl : ∀ w ∈ addLast [']'] (b.map dec), w ≠ [] ∧ ' ' ∉ w := by
    intro w hw
    have word : ∀ a ∈ b.map dec, a ≠ [] ∧ ' ' ∉ a := by
      intro a ha
      obtain ⟨n, hn, rfl⟩ := List.mem_map.1 ha
      have hd := dec_decimal (hb n hn)
      exact ⟨hd.1, fun hm => (decimal_char hd _ hm).1 rfl⟩
    rcases mem_addLast hw with rfl | ⟨a, ha, rfl | rfl⟩
    · decide
    · exact word w ha
    · have := word a ha
      simp [this.1, this.2]
  unfold sprintd stringify
  rw [← join_addLast, ← join_addLast]
  cases hw : addLast [']'] (b.map dec) with
  | nil => exact absurd hw (addLast_ne _ _)
  | cons a l =>
    rw [hw] at hl
    rw [← join_head, ← join_head]
    have hs : splitOn (fun c => decide (c = ' ')) (join ' ' (('[' :: a) :: l)) = ('[' :: a) :: l := by
      refine split_join (by decide) (by simp) fun w hw c hc => ?_
      simp only [decide_eq_false_iff_not]
      rintro rfl
      rcases List.mem_cons.1 hw with rfl | hw
      · rcases List.mem_cons.1 hc with h | hc
        · revert h; decide
        · exact (hl a List.mem_cons_self).2 hc
      · exact (hl w (List.mem_cons_of_mem _ hw)).2 hc
    unfold fields
    rw [hs, List.filter_eq_self.2]
    intro w hw
    rcases List.mem_cons.1 hw with rfl | hw
    · rfl
    · simp [(hl w (List.mem_cons_of_mem _ hw)).1]

theorem elems_parts {t : Str} {ns : List Nat} (h : Spec.Elems t ns) :
    (splitOn (fun c => decide (c = ',')) t).mapM parseByte = (if ∀ n ∈ ns, n < 256 then some ns else none) ∧ t ≠ [] := by
  induction h with
  | one s n hd =>
    rw [splitOn_free fun c hc => by simp [(decimal_char hd c hc).2.1]]
    refine ⟨?_, hd.1⟩
    by_cases hn : n < 256
    · rw [if_pos (by simpa using hn), List.mapM_cons, (parseByte_iff s n).2 ⟨hd, hn⟩]
      rfl
    · rw [if_neg (by simpa using hn), List.mapM_cons]
      cases hp : parseByte s with
      | none => rfl
      | some m =>
        obtain ⟨h1, h2⟩ := (parseByte_iff s m).1 hp
        have : n = m := hd.2.2.2.symm.trans h1.2.2.2
        omega
  | more s n t ns hd _ ih =>
    rw [splitOn_sep (c := ',') (fun c hc => by simp [(decimal_char hd c hc).2.1]) (by decide)]
    refine ⟨?_, by simp⟩
    rw [List.mapM_cons, ih.1]
    by_cases hn : n < 256
    · rw [(parseByte_iff s n).2 ⟨hd, hn⟩]
      by_cases hr : ∀ m ∈ ns, m < 256
      · rw [if_pos hr, if_pos (by simpa [hn] using hr)]
        rfl
      · rw [if_neg hr, if_neg (fun h => hr fun m hm => h m (List.mem_cons_of_mem _ hm))]
        rfl
    · rw [if_neg (c := ∀ m ∈ n :: ns, m < 256) (fun h => hn (h n List.mem_cons_self))]
      cases hp : parseByte s with
      | none => rfl
      | some m =>
        obtain ⟨h1, h2⟩ := (parseByte_iff s m).1 hp
        have : n = m := hd.2.2.2.symm.trans h1.2.2.2
        omega

/-- C167. An array of numbers is read as what it is, or refused if a number is not a byte. -/
theorem array_read {t : Str} {ns : List Nat} (h : Spec.Array t ns) :
    unmarshal t = if ∀ n ∈ ns, n < 256 then some ns else none := by
  cases h with
  | empty => rfl
  | some t ns h =>
    obtain ⟨h1, h2⟩ := elems_parts h
    show (match (t ++ [']']).reverse with
      | ']' :: m => if m = [] then some [] else (splitOn (fun c => decide (c = ',')) m.reverse).mapM parseByte
      | _ => none) = _
    rw [List.reverse_append, List.reverse_singleton, List.singleton_append]
    show (if t.reverse = [] then some [] else (splitOn (fun c => decide (c = ',')) t.reverse.reverse).mapM parseByte) = _
    rw [if_neg (by simpa using h2), List.reverse_reverse, h1]

/-- C167. The server writes a byte string as the array of its bytes, and nothing that is not there is an array. -/
theorem written (b : Bytes) (hb : Spec.IsBytes b) : Spec.Array (marshal (some b)) b ∧ ∀ ns, ¬ Spec.Array (marshal none) ns := by
  refine ⟨?_, ?_⟩
  · show Spec.Array (join ',' (fields (sprintd b))) b
    rw [sprintd_join hb]
    exact stringify_array hb
  · rintro ns h
    have hc : ∀ {t : Str}, Spec.Array t ns → t.head? = some '[' := by
      intro t h
      cases h <;> rfl
    have := hc h
    revert this
    decide

/-- What the elements of a text are is determined by its parts. -/
theorem elems_values {t : Str} {ns : List Nat} (h : Spec.Elems t ns) :
    ns = (splitOn (fun c => decide (c = ',')) t).map Spec.value := by
  induction h with
  | one s n hd =>
    rw [splitOn_free fun c hc => by simp [(decimal_char hd c hc).2.1]]
    simp [hd.2.2.2]
  | more s n t ns hd _ ih =>
    rw [splitOn_sep (c := ',') (fun c hc => by simp [(decimal_char hd c hc).2.1]) (by decide), List.map_cons, ← ih, hd.2.2.2]

/-- C167. A text is at most one array: who reads it by the rules of JSON reads the same. -/
theorem one_array {t : Str} {ns ms : List Nat} (h1 : Spec.Array t ns) (h2 : Spec.Array t ms) : ns = ms := by
  have key : ∀ {t : Str} {ns}, Spec.Array t ns →
      ns = if t = ['[', ']'] then [] else (splitOn (fun c => decide (c = ',')) (t.drop 1).dropLast).map Spec.value := by
    intro t ns h
    cases h with
    | empty => rfl
    | some t ns h =>
      have h2 := (elems_parts h).2
      rw [if_neg]
      · have : (('[' :: (t ++ [']'])).drop 1).dropLast = t := by simp
        rw [this]
        exact elems_values h
      · intro e
        simp at e
        exact h2 e
  rw [key h1, key h2]

/-! ## The trip -/

theorem uint8_bytes {b : Bytes} (hb : Spec.IsBytes b) : uint8Array b = b := by
  unfold uint8Array
  conv => rhs; rw [← List.map_id b]
  exact List.map_congr_left fun n hn => Nat.mod_eq_of_lt (hb n hn)

/-- C167. What the page hands to the authenticator is what the server made, so the challenge that comes back with the
client's data is the one under which the server looks for it. -/
theorem to_browser (b : Bytes) (hb : Spec.IsBytes b) (l : List Nat) (hl : Spec.Array (marshal (some b)) l) :
    uint8Array l = b := by
  obtain rfl := one_array hl (written b hb).1
  exact uint8_bytes hb

theorem challenge_known (enc : Bytes → Str) (known : Str → Bool) (b : Bytes) (hb : Spec.IsBytes b) (hk : known (enc b) = true)
    (l : List Nat) (hl : Spec.Array (marshal (some b)) l) : known (enc (uint8Array l)) = true := by
  rw [to_browser b hb l hl, hk]

/-- C167. What the server gets is what the authenticator made. -/
theorem to_server (b : Bytes) (hb : Spec.IsBytes b) : unmarshal (stringify (uint8Array b)) = some b := by
  rw [uint8_bytes hb, array_read (stringify_array hb)]
  exact if_pos hb

/-- C167. What is stored is read back, whatever it is. -/
theorem stored (b : Bytes) (hb : Spec.IsBytes b) : unmarshal (marshal (some b)) = some b := by
  rw [array_read (written b hb).1]
  exact if_pos hb

/-- C167. Whatever a client sends, the server gets bytes, or nothing. -/
theorem only_bytes (t : Str) (b : Bytes) (h : unmarshal t = some b) : Spec.IsBytes b := by
  have key : ∀ (ws : List Str) (b : Bytes), ws.mapM parseByte = some b → Spec.IsBytes b := by
    intro ws
    induction ws with
    | nil =>
      intro b h
      cases h
      intro x hx
      cases hx
    | cons w ws ih =>
      intro b h
      rw [List.mapM_cons] at h
      cases hp : parseByte w with
      | none => rw [hp] at h; cases h
      | some n =>
        rw [hp] at h
        cases hr : ws.mapM parseByte with
        | none => rw [hr] at h; cases h
        | some l =>
          rw [hr] at h
          cases h
          intro x hx
          rcases List.mem_cons.1 hx with rfl | hx
          · exact ((parseByte_iff w _).1 hp).2
          · exact ih l hr x hx
  unfold unmarshal at h
  split at h
  · split at h
    · split at h
      · cases h
        intro x hx
        cases hx
      · exact key _ _ h
    · cases h
  · cases h

/-! ## Examples -/

example : String.ofList (marshal (some [0, 7, 255])) = "[0,7,255]" := by decide +kernel
example : String.ofList (marshal (some [])) = "[]" := by decide +kernel
example : String.ofList (marshal none) = "null" := by decide +kernel
example : unmarshal "[0,7,255]".toList = some [0, 7, 255] := by decide +kernel
example : unmarshal "[0,7,256]".toList = none := by decide +kernel
example : unmarshal "[0,07]".toList = none := by decide +kernel
example : Spec.IsBytes [0, 7, 255] := by unfold Spec.IsBytes; decide
example : Spec.Array "[0,7]".toList [0, 7] := .some _ _ (.more ['0'] 0 ['7'] _ (by decide) (.one ['7'] 7 (by decide)))

end Verif.ByteArrays
