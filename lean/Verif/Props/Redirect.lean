import Verif.Model.Redirect
import Verif.Props.Handlers
/-
C103, C104: permanent redirects.
-/
namespace Verif.Redirect

open Verif.Path (Str pathClean splitSlash pathClean_good pathClean_canonical)
open Verif.Path.Spec (resolve render Proper clean)
open Verif.Http (Ctx Be Req Out StaticRes serve serveStatic chooseOverride Choice Override Handler join
  authenticate localEndpoints reverseProxy matchPrefixes)

/-! ## Specification -/

/-- The value of a hexadecimal digit. -/
def Spec.hexVal (c : Char) : Option Nat :=
  if '0' ≤ c ∧ c ≤ '9' then some (c.toNat - 48)
  else if 'A' ≤ c ∧ c ≤ 'F' then some (c.toNat - 55)
  else if 'a' ≤ c ∧ c ≤ 'f' then some (c.toNat - 87)
  else none

/-- Percent-decoding of the path of a URL. -/
def Spec.decode : Str → Str
  | '%' :: a :: b :: t =>
    match Spec.hexVal a, Spec.hexVal b with
    | some x, some y => Char.ofNat (16 * x + y) :: Spec.decode t
    | _, _ => '%' :: Spec.decode (a :: b :: t)
  | c :: t => c :: Spec.decode t
  | [] => []

/-- A Location header that every client takes as a path of the host it is talking to: one slash,
then neither a slash nor a backslash, nothing outside of printable ASCII (clients drop tabs and
line breaks) and nothing that ends the path. It names the given path, followed by a query. -/
def Spec.LeadsTo (loc path query : Str) : Prop :=
  ∃ u, loc = u ++ query ∧ u.head? = some '/' ∧ u.tail.head? ≠ some '/' ∧
    (∀ c ∈ u, 32 < c.toNat ∧ c.toNat < 127 ∧ c ≠ '\\' ∧ c ≠ '?' ∧ c ≠ '#') ∧ Spec.decode u = path

/-- The path segments that a path stands for. -/
def Spec.segs (p : Str) : List Str := resolve (splitSlash p) []

/-- All characters are bytes. -/
def Spec.Bytes (p : Str) : Prop := ∀ c ∈ p, c.toNat < 256

/-! ## Escaping -/

theorem keep_range {c : Char} (h : keep c = true) :
    32 < c.toNat ∧ c.toNat < 127 ∧ c ≠ '\\' ∧ c ≠ '?' ∧ c ≠ '#' ∧ c ≠ '%' := by
  have hb : c.toNat < 128 := by
    simp only [keep, Bool.or_eq_true, Char.isAlphanum, Char.isAlpha, Char.isUpper, Char.isLower, Char.isDigit,
      List.contains_eq_mem, List.mem_cons, decide_eq_true_eq, Bool.and_eq_true, List.not_mem_nil, or_false] at h
    have e : c.toNat = c.val.toNat := rfl
    simp only [UInt32.le_iff_toNat_le] at h
    rcases h with ((h | h) | h) | h
    · have := h.2; simp at this; omega
    · have := h.2; simp at this; omega
    · have := h.2; simp at this; omega
    · rcases h with h | h | h | h | h | h | h | h | h | h | h | h | h <;> subst h <;> decide
  have hc : c = Char.ofNat c.toNat := by simp
  have key : ∀ n : Fin 128, keep (Char.ofNat n) = true →
      32 < (Char.ofNat n).toNat ∧ (Char.ofNat n).toNat < 127 ∧ Char.ofNat n ≠ '\\' ∧ Char.ofNat n ≠ '?' ∧
        Char.ofNat n ≠ '#' ∧ Char.ofNat n ≠ '%' := by decide +kernel
  have := key ⟨c.toNat, hb⟩
  simp only [← hc] at this
  exact this h

theorem upper_range : ∀ n : Fin 16, 32 < (upperHex n).toNat ∧ (upperHex n).toNat < 127 ∧ upperHex n ≠ '\\' ∧
    upperHex n ≠ '?' ∧ upperHex n ≠ '#' ∧ upperHex n ≠ '/' ∧ upperHex n ≠ '.' ∧
    Spec.hexVal (upperHex n) = some n.1 := by decide +kernel

theorem upper_ok (n : Nat) (h : n < 16) : 32 < (upperHex n).toNat ∧ (upperHex n).toNat < 127 ∧ upperHex n ≠ '\\' ∧
    upperHex n ≠ '?' ∧ upperHex n ≠ '#' ∧ upperHex n ≠ '/' ∧ upperHex n ≠ '.' ∧
    Spec.hexVal (upperHex n) = some n := upper_range ⟨n, h⟩

theorem escape_cons (c : Char) (t : Str) : escape (c :: t) = escapeChar c ++ escape t := rfl

theorem escape_append (a b : Str) : escape (a ++ b) = escape a ++ escape b := by
  simp [escape]

theorem escapeChar_range {c : Char} (hc : c.toNat < 256) : ∀ x ∈ escapeChar c,
    32 < x.toNat ∧ x.toNat < 127 ∧ x ≠ '\\' ∧ x ≠ '?' ∧ x ≠ '#' := by
  unfold escapeChar
  split
  · rename_i h
    intro x hx
    simp at hx; subst hx
    obtain ⟨a, b, c, d, e, _⟩ := keep_range h
    exact ⟨a, b, c, d, e⟩
  · intro x hx
    have h1 := upper_ok (c.toNat / 16) (by omega)
    have h2 := upper_ok (c.toNat % 16) (by omega)
    simp at hx
    rcases hx with rfl | rfl | rfl
    · decide
    · exact ⟨h1.1, h1.2.1, h1.2.2.1, h1.2.2.2.1, h1.2.2.2.2.1⟩
    · exact ⟨h2.1, h2.2.1, h2.2.2.1, h2.2.2.2.1, h2.2.2.2.2.1⟩

theorem escape_range {p : Str} (hp : Spec.Bytes p) : ∀ x ∈ escape p,
    32 < x.toNat ∧ x.toNat < 127 ∧ x ≠ '\\' ∧ x ≠ '?' ∧ x ≠ '#' := by
  intro x hx
  obtain ⟨c, hc, hxc⟩ := List.mem_flatMap.mp hx
  exact escapeChar_range (hp c hc) x hxc

theorem decode_escape {p : Str} (hp : Spec.Bytes p) : Spec.decode (escape p) = p := by
  induction p with
  | nil => rfl
  | cons c t ih =>
    have ht := ih (fun x hx => hp x (List.mem_cons_of_mem _ hx))
    have hc := hp c (by simp)
    rw [escape_cons]
    unfold escapeChar
    split
    · rename_i h
      obtain ⟨_, _, _, _, _, h6⟩ := keep_range h
      rw [List.singleton_append, Spec.decode, ht]
      intro a b t' he
      exact absurd he.symm (by simpa using fun h => absurd h.symm h6)
    · have h1 := (upper_ok (c.toNat / 16) (by omega)).2.2.2.2.2.2.2
      have h2 := (upper_ok (c.toNat % 16) (by omega)).2.2.2.2.2.2.2
      simp only [List.cons_append, List.nil_append, Spec.decode, h1, h2, ht]
      congr 1
      rw [Nat.div_add_mod]; simp

/-- The first character of an escaped byte is never a '/' or '.' unless the byte is one. -/
theorem escapeChar_cases {c : Char} (hc : c.toNat < 256) :
    (escapeChar c = [c]) ∨ (c ≠ '/' ∧ c ≠ '.' ∧ ∃ a b, escapeChar c = ['%', a, b] ∧ a ≠ '/' ∧ b ≠ '/') := by
  unfold escapeChar
  split
  · exact .inl rfl
  · rename_i h
    refine .inr ⟨?_, ?_, _, _, rfl, (upper_ok _ (by omega)).2.2.2.2.2.1, (upper_ok _ (by omega)).2.2.2.2.2.1⟩
    · rintro rfl; exact h (by decide)
    · rintro rfl; exact h (by decide)

theorem split_escape {p : Str} (hp : Spec.Bytes p) : splitSlash (escape p) = (splitSlash p).map escape := by
  induction p with
  | nil => rfl
  | cons c t ih =>
    have ht := ih (fun x hx => hp x (List.mem_cons_of_mem _ hx))
    rw [escape_cons]
    rcases escapeChar_cases (hp c (by simp)) with h | ⟨h1, h2, a, b, h, ha, hb⟩
    · rw [h, List.singleton_append, splitSlash, splitSlash, ht]
      split
      · rfl
      · cases hs : splitSlash t with
        | nil => exact absurd hs (Verif.Path.splitSlash_ne t)
        | cons x y => simp only [List.map_cons, escape_cons, h]; rfl
    · rw [h]
      simp only [List.cons_append, List.nil_append, splitSlash, ht, if_neg ha, if_neg hb, if_neg h1,
        if_neg (by decide : ¬ '%' = '/')]
      cases hs : splitSlash t with
      | nil => exact absurd hs (Verif.Path.splitSlash_ne t)
      | cons x y => simp only [List.map_cons, escape_cons, h]; rfl

theorem escape_eq_nil {s : Str} : escape s = [] ↔ s = [] := by
  cases s with
  | nil => simp [escape]
  | cons c t =>
    rw [escape_cons]
    unfold escapeChar
    split <;> simp

theorem escape_inj {a b : Str} (ha : Spec.Bytes a) (hb : Spec.Bytes b) (h : escape a = escape b) : a = b := by
  rw [← decode_escape ha, ← decode_escape hb, h]

theorem escape_dots : escape ['.'] = ['.'] ∧ escape ['.', '.'] = ['.', '.'] := by decide

theorem resolve_escape (l acc : List Str) (hl : ∀ s ∈ l, Spec.Bytes s) :
    resolve (l.map escape) (acc.map escape) = (resolve l acc).map escape := by
  induction l generalizing acc with
  | nil => rfl
  | cons a t ih =>
    have ht := fun s hs => hl s (List.mem_cons_of_mem a hs)
    have ha := hl a (by simp)
    have b1 : Spec.Bytes ['.'] := by intro c hc; simp at hc; subst hc; decide
    have b2 : Spec.Bytes ['.', '.'] := by intro c hc; simp at hc; subst hc; decide
    have e1 : escape a = ['.'] ↔ a = ['.'] :=
      ⟨fun h => escape_inj ha b1 (h.trans escape_dots.1.symm), fun h => by rw [h]; exact escape_dots.1⟩
    have e2 : escape a = ['.', '.'] ↔ a = ['.', '.'] :=
      ⟨fun h => escape_inj ha b2 (h.trans escape_dots.2.symm), fun h => by rw [h]; exact escape_dots.2⟩
    rw [List.map_cons, resolve, resolve]
    simp only [escape_eq_nil, e1, e2]
    split
    · exact ih acc ht
    · split
      · rw [← List.map_dropLast]; exact ih _ ht
      · have : acc.map escape ++ [escape a] = (acc ++ [a]).map escape := by simp
        rw [this]; exact ih _ ht

theorem escape_intercalate (l : List Str) :
    escape (List.intercalate ['/'] l) = List.intercalate ['/'] (l.map escape) := by
  induction l with
  | nil => rfl
  | cons a t ih =>
    cases t with
    | nil => simp [List.intercalate]
    | cons b t =>
      rw [List.intercalate_cons_cons, escape_append, escape_append, ih]
      simp only [List.map_cons, List.intercalate_cons_cons]
      rfl

theorem split_bytes {p : Str} (hp : Spec.Bytes p) : ∀ s ∈ splitSlash p, Spec.Bytes s := by
  induction p with
  | nil => intro s hs; simp [splitSlash] at hs; subst hs; intro c hc; cases hc
  | cons c t ih =>
    have ht := ih (fun x hx => hp x (List.mem_cons_of_mem _ hx))
    intro s hs
    rw [splitSlash] at hs
    split at hs
    · rcases List.mem_cons.mp hs with rfl | hs
      · intro c hc; cases hc
      · exact ht s hs
    · cases h : splitSlash t with
      | nil => exact absurd h (Verif.Path.splitSlash_ne t)
      | cons x y =>
        rw [h] at hs ht
        rcases List.mem_cons.mp hs with rfl | hs
        · intro d hd
          rcases List.mem_cons.mp hd with rfl | hd
          · exact hp _ (by simp)
          · exact ht x (by simp) d hd
        · exact ht s (List.mem_cons_of_mem _ hs)

theorem escape_last {p : Str} (hp : Spec.Bytes p) : (escape p).getLast? = some '/' ↔ p.getLast? = some '/' := by
  rcases List.eq_nil_or_concat p with rfl | ⟨q, c, rfl⟩
  · simp [escape]
  · rw [List.concat_eq_append] at hp ⊢
    rw [escape_append]
    have hc := hp c (by simp)
    rcases escapeChar_cases hc with h | ⟨h1, _, a, b, h, _, hb⟩
    · simp [escape, h]
    · simp [escape, h, h1, hb]

/-- Escaping and cleaning commute. -/
theorem clean_escape {p : Str} (hp : Spec.Bytes p) : pathClean (escape p) = escape (pathClean p) := by
  rw [pathClean_canonical, pathClean_canonical]
  unfold clean render
  have h := resolve_escape (splitSlash p) [] (split_bytes hp)
  simp only [List.map_nil] at h
  rw [split_escape hp, h]
  have hl : (decide ((escape p).getLast? = some '/')) = decide (p.getLast? = some '/') := by
    simp only [escape_last hp]
  rw [hl]
  simp only [List.cons_append, escape_cons, escape_append, escape_intercalate]
  have : escapeChar '/' = ['/'] := by decide
  rw [this]
  simp only [ne_eq, List.map_eq_nil_iff]
  split
  · simp [escape, this]
  · simp [escape]

/-! ## C103 -/

theorem resolve_bytes (l acc : List Str) (hl : ∀ s ∈ l, Spec.Bytes s) (ha : ∀ s ∈ acc, Spec.Bytes s) :
    ∀ s ∈ resolve l acc, Spec.Bytes s := by
  induction l generalizing acc with
  | nil => exact ha
  | cons a t ih =>
    have ht := fun s hs => hl s (List.mem_cons_of_mem a hs)
    rw [resolve]
    split
    · exact ih acc ht ha
    · split
      · exact ih _ ht (fun s hs => ha s (List.dropLast_subset _ hs))
      · refine ih _ ht (fun s hs => ?_)
        rcases List.mem_append.mp hs with h | h
        · exact ha s h
        · simp at h; subst h; exact hl _ (by simp)

theorem clean_bytes {p : Str} (hp : Spec.Bytes p) : Spec.Bytes (pathClean p) := by
  rw [pathClean_canonical]
  have h := resolve_bytes (splitSlash p) [] (split_bytes hp) (fun s hs => by cases hs)
  intro c hc
  unfold clean render at hc
  have hslash : ('/' : Char).toNat < 256 := by decide
  have key : ∀ (l : List Str), (∀ s ∈ l, Spec.Bytes s) → ∀ c ∈ List.intercalate ['/'] l, c.toNat < 256 := by
    intro l
    induction l with
    | nil => intro _ c hc; cases hc
    | cons a t ih =>
      intro hl c hc
      cases t with
      | nil => simp [List.intercalate] at hc; exact hl a (by simp) c hc
      | cons b t =>
        rw [List.intercalate_cons_cons] at hc
        simp only [List.append_assoc, List.mem_append, List.mem_singleton] at hc
        rcases hc with h | rfl | h
        · exact hl a (by simp) c h
        · exact hslash
        · exact ih (fun s hs => hl s (List.mem_cons_of_mem _ hs)) c h
  simp only [List.cons_append, List.mem_cons, List.mem_append] at hc
  rcases hc with rfl | hc | hc
  · exact hslash
  · exact key _ h c hc
  · split at hc
    · simp at hc; subst hc; exact hslash
    · cases hc

theorem asciiOnly_append (a b : Str) : asciiOnly (a ++ b) = asciiOnly a ++ asciiOnly b := by
  simp [asciiOnly]

theorem asciiOnly_id {u : Str} (h : ∀ c ∈ u, c.toNat < 127) : asciiOnly u = u := by
  induction u with
  | nil => rfl
  | cons c t ih =>
    have := h c (by simp)
    simp only [asciiOnly, List.flatMap_cons]
    rw [if_pos (by omega), List.singleton_append]
    congr 1
    exact ih (fun x hx => h x (List.mem_cons_of_mem _ hx))

/-- What follows the path in a URL. -/
def Spec.queryPart (q : Str) : Str := if q = [] then [] else '?' :: q

theorem noHost {p : Str} (hc : ∀ a t, p = '/' :: '/' :: a :: t → a = '/') (q : Str) :
    hasHost (escape p ++ Spec.queryPart q) = false := by
  have hs : escapeChar '/' = ['/'] := by decide
  have hfirst : ∀ (c : Char) (x : Str), c ≠ '/' → ∀ y, escapeChar c ++ x ≠ '/' :: y := by
    intro c x hne y
    unfold escapeChar
    split
    · simp [hne]
    · simp
  have hq : ∀ y, Spec.queryPart q ≠ '/' :: y := by
    intro y; unfold Spec.queryPart; split <;> simp
  have hq' : ∀ a y, Spec.queryPart q = a :: y → a = '?' := by
    intro a y; unfold Spec.queryPart; split
    · intro h; cases h
    · intro h; cases h; rfl
  unfold hasHost
  split
  · rename_i c t heq
    cases p with
    | nil => exact absurd heq (hq _)
    | cons a p =>
      by_cases ha : a = '/'
      · subst ha
        rw [escape_cons, hs] at heq
        simp only [List.cons_append, List.nil_append, List.cons.injEq, true_and] at heq
        cases p with
        | nil => exact absurd heq (hq _)
        | cons b p =>
          by_cases hb : b = '/'
          · subst hb
            rw [escape_cons, hs] at heq
            simp only [List.cons_append, List.nil_append, List.cons.injEq, true_and] at heq
            cases p with
            | nil => rw [hq' _ _ heq]; decide
            | cons d p =>
              have := hc d p rfl
              subst this
              rw [escape_cons, hs] at heq
              simp only [List.cons_append, List.nil_append, List.cons.injEq] at heq
              rw [← heq.1]; decide
          · rw [escape_cons, List.append_assoc] at heq
            exact absurd heq (hfirst _ _ hb _)
      · rw [escape_cons, List.append_assoc] at heq
        exact absurd heq (hfirst _ _ ha _)
  · rfl

theorem take_path {u : Str} (hu : ∀ c ∈ u, c ≠ '?') (q : Str) :
    (u ++ Spec.queryPart q).takeWhile (· ≠ '?') = u ∧
    (u ++ Spec.queryPart q).dropWhile (· ≠ '?') = Spec.queryPart q := by
  have h1 : ∀ c ∈ u, decide (c ≠ '?') = true := fun c hc => by simpa using hu c hc
  have hq : (Spec.queryPart q).takeWhile (· ≠ '?') = [] ∧ (Spec.queryPart q).dropWhile (· ≠ '?') = Spec.queryPart q := by
    unfold Spec.queryPart
    split <;> simp
  rw [List.takeWhile_append_of_pos h1, List.dropWhile_append_of_pos h1, hq.1, hq.2]
  simp

theorem canon_head (p : Str) : ∃ t, pathClean p = '/' :: t ∧ t.head? ≠ some '/' := by
  obtain ⟨⟨t, ht⟩, ⟨segs, b, hr, hs⟩, _⟩ := pathClean_good p
  refine ⟨t, ht, ?_⟩
  rw [ht] at hr
  unfold render at hr
  simp only [List.cons_append, List.cons.injEq, true_and] at hr
  subst hr
  cases segs with
  | nil => simp [List.intercalate]
  | cons a l =>
    have ha := hs a (by simp)
    cases a with
    | nil => exact absurd rfl ha.1
    | cons x y =>
      have hx : x ≠ '/' := fun h => ha.2.2.2 (by simp [h])
      cases l <;> simp [List.intercalate, List.intersperse, hx]

/-- The Location for a target that is empty or starts with '/': the target in canonical form. -/
theorem location_eq {old p : Str} (q : Str) (hb : Spec.Bytes p) (hr : p = [] ∧ old = ['/'] ∨ p.head? = some '/')
    (hc : ∀ a t, p = '/' :: '/' :: a :: t → a = '/') :
    location old p q = escape (pathClean p) ++ asciiOnly (Spec.queryPart q) := by
  unfold location httpRedirect
  have hu : urlString p q = escape p ++ Spec.queryPart q := rfl
  rw [hu, noHost hc]
  simp only [Bool.false_eq_true, if_false]
  have hhead : ∀ t : Str, (escape ('/' :: t) ++ Spec.queryPart q).head? = some '/' := by
    intro t
    have hs : escapeChar '/' = ['/'] := by decide
    rw [escape_cons, hs]; rfl
  have hfin : ∀ p : Str, Spec.Bytes p → asciiOnly (pathClean ((escape p ++ Spec.queryPart q).takeWhile (· ≠ '?')) ++
      (escape p ++ Spec.queryPart q).dropWhile (· ≠ '?')) = escape (pathClean p) ++ asciiOnly (Spec.queryPart q) := by
    intro p hb
    have ht := take_path (fun c hc => (escape_range hb c hc).2.2.2.1) q
    rw [ht.1, ht.2, clean_escape hb, asciiOnly_append,
      asciiOnly_id (fun c hc => (escape_range (clean_bytes hb) c hc).2.1)]
  rcases hr with ⟨rfl, rfl⟩ | hr
  · have hn : (escape [] ++ Spec.queryPart q).head? ≠ some '/' := by
      simp only [escape, List.flatMap_nil, List.nil_append]
      unfold Spec.queryPart; split <;> simp
    rw [if_neg hn, if_neg (by simp)]
    have h1 : dirOf ['/'] ++ (escape [] ++ Spec.queryPart q) = escape ['/'] ++ Spec.queryPart q := rfl
    rw [h1, hfin ['/'] (by intro c hc; simp at hc; subst hc; decide)]
    rfl
  · cases p with
    | nil => cases hr
    | cons a t =>
      simp only [List.head?_cons, Option.some.injEq] at hr
      subst hr
      rw [if_pos (hhead t)]
      exact hfin _ hb

theorem leadsTo_of {p : Str} (q : Str) (hb : Spec.Bytes p) :
    Spec.LeadsTo (escape (pathClean p) ++ q) (pathClean p) q := by
  obtain ⟨t, ht, hn⟩ := canon_head p
  have hcb := clean_bytes hb
  refine ⟨_, rfl, ?_, ?_, escape_range hcb, decode_escape hcb⟩
  · rw [ht, escape_cons]; rfl
  · rw [ht, escape_cons]
    have hs : escapeChar '/' = ['/'] := by decide
    rw [hs, List.singleton_append, List.tail_cons]
    cases t with
    | nil => simp [escape]
    | cons a t =>
      rw [escape_cons]
      have ha : a ≠ '/' := by simpa using hn
      unfold escapeChar
      split
      · simpa using ha
      · simp

/-! ### Where redirects come from -/

/-- `serveStatic` answers from these files: document root and prefix. -/
inductive Files (be : Be) (q : Str) : Str → Str → Prop
  | local : be.reverse = false → Files be q be.docRoot []
  | override (root pre) : be.reverse = true → chooseOverride q 0 be.overrides = .static root pre → Files be q root pre
  | own : be.reverse = true → be.addresses = [] →
      (chooseOverride q 0 be.overrides = .none ∨ ∃ i o, chooseOverride q 0 be.overrides = .addresses i o) →
      Files be q be.docRoot []

/-- What is left of a path below the document root (backend-http.go:145-146). -/
def strip (pre q : Str) : Str :=
  let p := if pre.isPrefixOf q then q.drop pre.length else q
  if ['/'].isPrefixOf p then p.drop 1 else p

/-- No local endpoint is chosen. -/
def NoHandler (c : Ctx) (be : Be) (r : Req) : Prop :=
  be.handlers.find? (fun h => h.matches (c.hostFromReq r.host) (pathClean r.path)) = none

/-- No local endpoint has the path with a slash added. -/
def NoSlash (c : Ctx) (be : Be) (r : Req) : Prop :=
  ∀ h ∈ be.handlers, (h.host = "" ∨ h.host = c.hostFromReq r.host) → h.path ≠ pathClean r.path ++ ['/']

/-- The reasons for a redirect. -/
inductive Why (c : Ctx) (be : Be) (r : Req) : Str → Prop
  | clean : pathClean r.path ≠ r.path → Why c be r (pathClean r.path)
  | handler (h : Handler) : NoHandler c be r → h ∈ be.handlers →
      (h.host = "" ∨ h.host = c.hostFromReq r.host) → h.path = pathClean r.path ++ ['/'] →
      Why c be r (pathClean r.path ++ ['/'])
  | override (p) : NoHandler c be r → be.reverse = true →
      chooseOverride (pathClean r.path) 0 be.overrides = .redirect p → Why c be r p
  | dir (root pre) : NoHandler c be r → NoSlash c be r → Files be r.path root pre → root ≠ [] →
      pathClean r.path = r.path → c.stat (join root (strip pre r.path)) = some .dir →
      r.path.getLast? ≠ some '/' → Why c be r (r.path ++ ['/'])
  | file (root pre k) : NoHandler c be r → NoSlash c be r → Files be r.path root pre → root ≠ [] →
      pathClean r.path = r.path → c.stat (join root (strip pre r.path)) = some k → k ≠ .dir →
      r.path.getLast? = some '/' → Why c be r r.path.dropLast

theorem static_why {c : Ctx} {be : Be} {r : Req} {root pre p : Str} {fs : List Str} {method : String}
    (hn : NoHandler c be r) (hs : NoSlash c be r) (hf : Files be (pathClean r.path) root pre)
    (h : serveStatic c root pre method r.path = (.redirect p, fs)) : Why c be r p := by
  unfold serveStatic at h
  split at h
  · cases h
  · rename_i hroot
    split at h
    · cases h
    · dsimp only at h
      split at h
      · rename_i hne; cases h; exact .clean hne
      · rename_i heq
        have he := Classical.not_not.mp heq
        rw [he] at hf h
        have hst : (if ['/'].isPrefixOf (if pre.isPrefixOf r.path then r.path.drop pre.length else r.path) then
            (if pre.isPrefixOf r.path then r.path.drop pre.length else r.path).drop 1
            else (if pre.isPrefixOf r.path then r.path.drop pre.length else r.path)) = strip pre r.path := rfl
        rw [hst] at h
        split at h
        · cases h
        · split at h
          · cases h
          · rename_i hd
            split at h
            · rename_i hl; cases h; exact .dir root pre hn hs hf hroot he hd hl
            · split at h <;> cases h
          · rename_i k hk hd
            split at h
            · rename_i hl; cases h; exact .file root pre _ hn hs hf hroot he hd (by rintro rfl; exact hk rfl) hl
            · split at h <;> cases h

theorem local_redirect {c : Ctx} {be : Be} {r : Req} {cl} {o : Out} {p : Str}
    (h : localEndpoints c be r cl = .error o) (ht : target o = some p) : Why c be r p := by
  unfold localEndpoints at h
  dsimp only at h
  split at h
  · split at h
    · rename_i o' ho
      cases h
      split at ho
      · cases ho
      · rcases Verif.Http.enforce_error' ho with rfl | rfl <;> cases ht
    · split at h
      · rename_i hne; cases h; cases ht; exact .clean hne
      · cases h; cases ht
  · rename_i hf
    split at h
    · rename_i o' ho
      cases h
      rcases Verif.Http.enforce_error' ho with rfl | rfl <;> cases ht
    · split at h
      · rename_i ha
        cases h; cases ht
        obtain ⟨hd, hm, hx⟩ := List.any_eq_true.mp ha
        have hx := of_decide_eq_true hx
        exact .handler hd hf hm hx.1 hx.2
      · cases h

theorem local_ok {c : Ctx} {be : Be} {r : Req} {cl} {ck}
    (h : localEndpoints c be r cl = .ok ck) : NoHandler c be r ∧ NoSlash c be r := by
  unfold localEndpoints at h
  dsimp only at h
  split at h
  · split at h
    · cases h
    · split at h <;> cases h
  · rename_i hf
    split at h
    · cases h
    · split at h
      · cases h
      · rename_i ha
        refine ⟨hf, ?_⟩
        intro hd hm hh hp
        exact ha (List.any_eq_true.mpr ⟨hd, hm, decide_eq_true ⟨hh, hp⟩⟩)

/-- Every redirect has one of the reasons. -/
theorem redirect_why {c : Ctx} {be : Be} {r : Req} {p : Str} (h : target (serve c be r) = some p) :
    Why c be r p := by
  unfold serve at h
  cases ha : authenticate c be r with
  | error o =>
    rw [ha] at h
    rcases Verif.Http.authenticate_error' ha with rfl | rfl <;> cases h
  | ok a =>
    rw [ha] at h
    dsimp only at h
    cases hl : localEndpoints c be r a.claims with
    | error o => rw [hl] at h; exact local_redirect hl h
    | ok ck =>
      rw [hl] at h
      dsimp only at h
      obtain ⟨hn, hs⟩ := local_ok hl
      cases hrev : be.reverse with
      | false =>
        rw [hrev] at h
        simp only [Bool.false_eq_true, if_false] at h
        cases hst : serveStatic c be.docRoot [] r.method r.path with
        | mk res fs =>
          rw [hst] at h
          cases res <;> simp only [target, reduceCtorEq, Option.some.injEq] at h
          subst h
          exact static_why hn hs (.local hrev) hst
      | true =>
        rw [hrev] at h
        simp only [if_true] at h
        unfold reverseProxy at h
        dsimp only at h
        have ht : (if r.host = "" then c.serverName else r.host) = Verif.Http.Spec.target c r := rfl
        rw [ht] at h
        split at h
        · cases h
        · split at h
          · cases h
          · cases hch : chooseOverride (pathClean r.path) 0 be.overrides with
            | redirect p' =>
              rw [hch] at h
              cases h
              exact .override _ hn hrev hch
            | static root pre =>
              rw [hch] at h
              dsimp only at h
              cases hst : serveStatic c root pre r.method r.path with
              | mk res fs =>
                rw [hst] at h
                cases res <;> simp only [target, reduceCtorEq, Option.some.injEq] at h
                subst h
                exact static_why hn hs (.override root pre hrev hch) hst
            | none =>
              rw [hch] at h
              dsimp only at h
              split at h
              · rename_i had
                cases hst : serveStatic c be.docRoot [] r.method r.path with
                | mk res fs =>
                  rw [hst] at h
                  cases res <;> simp only [target, reduceCtorEq, Option.some.injEq] at h
                  subst h
                  exact static_why hn hs (.own hrev had (.inl hch)) hst
              · split at h <;> cases h
            | addresses i o =>
              rw [hch] at h
              dsimp only at h
              split at h
              · rename_i had
                cases hst : serveStatic c be.docRoot [] r.method r.path with
                | mk res fs =>
                  rw [hst] at h
                  cases res <;> simp only [target, reduceCtorEq, Option.some.injEq] at h
                  subst h
                  exact static_why hn hs (.own hrev had (.inr ⟨i, o, hch⟩)) hst
              · split at h <;> cases h

theorem segs_clean (p : Str) : Spec.segs (pathClean p) = Spec.segs p := by
  unfold Spec.segs
  rw [pathClean_canonical]
  unfold clean
  exact Verif.Path.resolve_render _ _ (Verif.Path.segs_proper p)

theorem segs_slash (p : Str) : Spec.segs (p ++ ['/']) = Spec.segs p := by
  unfold Spec.segs
  rw [Verif.Path.split_append_slash, Verif.Path.resolve_append]
  simp [resolve]

theorem bytes_slash {p : Str} (h : Spec.Bytes p) : Spec.Bytes (p ++ ['/']) := by
  intro c hc
  rcases List.mem_append.mp hc with h' | h'
  · exact h c h'
  · simp at h'; subst h'; decide

theorem last_split {p : Str} (h : p.getLast? = some '/') : p = p.dropLast ++ ['/'] := by
  have hne : p ≠ [] := by rintro rfl; cases h
  rw [List.getLast?_eq_some_getLast hne] at h
  have := List.dropLast_concat_getLast hne
  rw [Option.some.inj h] at this
  exact this.symm

theorem override_target {q p : Str} {os : List Override} (h : chooseOverride q 0 os = .redirect p) :
    p = q ++ ['/'] ∧ ∃ o ∈ os, q ++ ['/'] ∈ o.paths := by
  have := Verif.Http.choose_spec q os 0
  rw [h] at this
  exact this

/-- What the target of a redirect looks like, whatever its reason. -/
theorem why_shape {c : Ctx} {be : Be} {r : Req} {p : Str} (hb : Spec.Bytes r.path) (h : Why c be r p) :
    Spec.Bytes p ∧ (p = [] ∧ r.path = ['/'] ∨ p.head? = some '/') ∧
    (∀ a t, p = '/' :: '/' :: a :: t → a = '/') ∧ Spec.segs (pathClean p) = Spec.segs r.path := by
  have hslash : ∀ q : Str, (∃ t, q = '/' :: t ∧ t.head? ≠ some '/') →
      ((q ++ ['/']).head? = some '/') ∧ ∀ a t, q ++ ['/'] = '/' :: '/' :: a :: t → a = '/' := by
    rintro q ⟨t, rfl, ht⟩
    refine ⟨rfl, ?_⟩
    intro a t' he
    cases t with
    | nil => simp at he
    | cons b t =>
      simp only [List.cons_append, List.cons.injEq, true_and] at he
      exact absurd he.1 (by simpa using ht)
  obtain ⟨t, ht, hn⟩ := canon_head r.path
  have hcb := clean_bytes hb
  cases h with
  | clean hne =>
    refine ⟨hcb, .inr (by rw [ht]; rfl), ?_, by rw [segs_clean, segs_clean]⟩
    intro a t' he
    rw [ht] at he
    simp only [List.cons.injEq, true_and] at he
    subst he
    exact absurd rfl hn
  | handler hd _ _ _ _ =>
    have := hslash _ ⟨t, ht, hn⟩
    exact ⟨bytes_slash hcb, .inr this.1, this.2, by rw [segs_clean, segs_slash, segs_clean]⟩
  | override _ _ _ hch =>
    obtain ⟨rfl, _⟩ := override_target hch
    have := hslash _ ⟨t, ht, hn⟩
    exact ⟨bytes_slash hcb, .inr this.1, this.2, by rw [segs_clean, segs_slash, segs_clean]⟩
  | dir root pre _ _ _ _ he _ _ =>
    rw [he] at ht
    have := hslash _ ⟨t, ht, hn⟩
    exact ⟨bytes_slash hb, .inr this.1, this.2, by rw [segs_clean, segs_slash]⟩
  | file root pre k _ _ _ _ he _ _ hl =>
    rw [he] at ht
    have hsp := last_split hl
    refine ⟨fun c hc => hb c (List.dropLast_subset _ hc), ?_, ?_, ?_⟩
    · cases t with
      | nil => exact .inl ⟨by rw [ht]; rfl, ht⟩
      | cons b t => right; rw [ht]; rfl
    · intro a t' hx
      rw [hx, ht] at hsp
      simp only [List.cons_append, List.cons.injEq, true_and] at hsp
      rw [hsp] at hn
      simp at hn
    · rw [segs_clean]
      conv => rhs; rw [hsp]
      rw [segs_slash]

/-! ### The query -/

theorem decode_ne {c : Char} (h : c ≠ '%') (t : Str) : Spec.decode (c :: t) = c :: Spec.decode t := by
  rw [Spec.decode]
  intro a b t' e
  exact absurd e h

theorem decode_hex {a b : Char} {x y : Nat} (ha : Spec.hexVal a = some x) (hb : Spec.hexVal b = some y) (t : Str) :
    Spec.decode ('%' :: a :: b :: t) = Char.ofNat (16 * x + y) :: Spec.decode t := by
  rw [Spec.decode, ha, hb]

theorem decode_no {a b : Char} (h : Spec.hexVal a = none ∨ Spec.hexVal b = none) (t : Str) :
    Spec.decode ('%' :: a :: b :: t) = '%' :: Spec.decode (a :: b :: t) := by
  rw [Spec.decode]
  rcases h with h | h
  · rw [h]
  · rw [h]
    cases Spec.hexVal a <;> rfl

theorem hexVal_ascii {c : Char} {x : Nat} (h : Spec.hexVal c = some x) : c.toNat < 128 := by
  unfold Spec.hexVal at h
  have key : ∀ d : Char, c ≤ d → c.toNat ≤ d.toNat := fun d hd => UInt32.le_iff_toNat_le.1 hd
  split at h
  · rename_i hc; have := key _ hc.2; have : ('9' : Char).toNat = 57 := rfl; omega
  · split at h
    · rename_i hc; have := key _ hc.2; have : ('F' : Char).toNat = 70 := rfl; omega
    · split at h
      · rename_i hc; have := key _ hc.2; have : ('f' : Char).toNat = 102 := rfl; omega
      · cases h

theorem hexVal_lower {n : Nat} (h : n < 16) : Spec.hexVal (lowerHex n) = some n ∧ (lowerHex n).toNat < 128 := by
  have : ∀ n : Fin 16, Spec.hexVal (lowerHex n) = some n.1 ∧ (lowerHex n).toNat < 128 := by decide
  exact this ⟨n, h⟩

theorem asciiOnly_cons (c : Char) (t : Str) : asciiOnly (c :: t) =
    (if c.toNat < 128 then [c] else ['%', lowerHex (c.toNat / 16), lowerHex (c.toNat % 16)]) ++ asciiOnly t := by
  simp [asciiOnly]

theorem decode_high {c : Char} (h1 : c.toNat < 256) (x : Str) :
    Spec.decode ('%' :: lowerHex (c.toNat / 16) :: lowerHex (c.toNat % 16) :: x) = c :: Spec.decode x := by
  rw [decode_hex (hexVal_lower (by omega)).1 (hexVal_lower (by omega)).1, Nat.div_add_mod]
  simp

/-- Escaping what is not ASCII does not change what a query stands for. -/
theorem decode_asciiOnly (n : Nat) (q : Str) (hn : q.length ≤ n) (hb : Spec.Bytes q) :
    Spec.decode (asciiOnly q) = Spec.decode q := by
  induction n generalizing q with
  | zero =>
    cases q with
    | nil => rfl
    | cons c t => simp at hn
  | succ n ih =>
    cases q with
    | nil => rfl
    | cons c t =>
      have hbt : Spec.Bytes t := fun x hx => hb x (List.mem_cons_of_mem _ hx)
      have hlt : t.length ≤ n := by simpa using hn
      rw [asciiOnly_cons]
      by_cases hc : c.toNat < 128
      · rw [if_pos hc, List.singleton_append]
        by_cases hp : c = '%'
        · subst hp
          have hpp : Spec.hexVal '%' = none := by decide
          cases t with
          | nil => rfl
          | cons a t =>
            cases t with
            | nil =>
              rw [asciiOnly_cons]
              have hd : Spec.decode ['%', a] = '%' :: Spec.decode [a] := by
                rw [Spec.decode]; intro a b t' _ e; cases e
              rw [hd, ← ih [a] (by simpa using hlt) hbt, asciiOnly_cons]
              by_cases ha : a.toNat < 128
              · rw [if_pos ha]
                show Spec.decode ['%', a] = '%' :: Spec.decode [a]
                exact hd
              · rw [if_neg ha]
                exact decode_no (.inl hpp) _
            | cons b t =>
              have hbt' : Spec.Bytes t := fun x hx => hbt x (by simp [hx])
              have hlt' : t.length ≤ n := by simp at hlt; omega
              by_cases hh : Spec.hexVal a = none ∨ Spec.hexVal b = none
              · rw [decode_no hh, ← ih (a :: b :: t) hlt hbt, asciiOnly_cons a, asciiOnly_cons b]
                by_cases ha : a.toNat < 128
                · rw [if_pos ha]
                  by_cases hb' : b.toNat < 128
                  · rw [if_pos hb']
                    exact decode_no hh _
                  · rw [if_neg hb']
                    exact decode_no (.inr hpp) _
                · rw [if_neg ha]
                  exact decode_no (.inl hpp) _
              · obtain ⟨x, hx⟩ := Option.ne_none_iff_exists'.1 (fun e => hh (.inl e))
                obtain ⟨y, hy⟩ := Option.ne_none_iff_exists'.1 (fun e => hh (.inr e))
                rw [asciiOnly_cons a, asciiOnly_cons b, if_pos (hexVal_ascii hx), if_pos (hexVal_ascii hy)]
                show Spec.decode ('%' :: a :: b :: asciiOnly t) = _
                rw [decode_hex hx hy, decode_hex hx hy, ih t hlt' hbt']
        · rw [decode_ne hp, decode_ne hp, ih t hlt hbt]
      · rw [if_neg hc]
        have hne : c ≠ '%' := by
          rintro rfl
          exact hc (by decide)
        rw [decode_ne hne, ← ih t hlt hbt]
        exact decode_high (hb c (by simp)) _

theorem asciiOnly_ascii {q : Str} (hb : Spec.Bytes q) : ∀ c ∈ asciiOnly q, c.toNat < 128 := by
  induction q with
  | nil => intro c h; cases h
  | cons a t ih =>
    intro c hc
    rw [asciiOnly_cons] at hc
    rcases List.mem_append.1 hc with hc | hc
    · split at hc
      · rename_i ha; rw [List.mem_singleton.1 hc]; exact ha
      · have := hb a (by simp)
        simp only [List.mem_cons, List.not_mem_nil, or_false] at hc
        rcases hc with rfl | rfl | rfl
        · decide
        · exact (hexVal_lower (by omega)).2
        · exact (hexVal_lower (by omega)).2
    · exact ih (fun x hx => hb x (List.mem_cons_of_mem _ hx)) c hc

theorem asciiOnly_same {q : Str} (h : ∀ c ∈ q, c.toNat < 128) : asciiOnly q = q := by
  induction q with
  | nil => rfl
  | cons a t ih =>
    rw [asciiOnly_cons, if_pos (h a (by simp)), ih (fun x hx => h x (List.mem_cons_of_mem _ hx))]
    rfl

/-- C103. Whatever the request, a permanent redirect leads to the same host: its Location is a path
that stands for the same segments as the path of the request, in canonical form and escaped, with
the query of the request: the very same one if it is ASCII, and otherwise one that is ASCII and stands for the same. -/
theorem redirect_same_host (c : Ctx) (be : Be) (r : Req) (p q : Str) (hb : Spec.Bytes r.path) (hq : Spec.Bytes q)
    (h : target (serve c be r) = some p) :
    ∃ path query, Spec.LeadsTo (location r.path p q) path query ∧
      Spec.segs path = Spec.segs r.path ∧ clean path = path ∧
      (∀ c ∈ query, c.toNat < 128) ∧ Spec.decode query = Spec.decode (Spec.queryPart q) ∧
      ((∀ c ∈ q, c.toNat < 128) → query = Spec.queryPart q) := by
  obtain ⟨h1, h2, h3, h4⟩ := why_shape hb (redirect_why h)
  have hqb : Spec.Bytes (Spec.queryPart q) := by
    unfold Spec.queryPart
    split
    · intro c hc; cases hc
    · intro c hc
      rcases List.mem_cons.1 hc with rfl | hc
      · decide
      · exact hq c hc
  have hqa : (∀ c ∈ q, c.toNat < 128) → asciiOnly (Spec.queryPart q) = Spec.queryPart q := by
    intro ha
    apply asciiOnly_same
    unfold Spec.queryPart
    split
    · intro c hc; cases hc
    · intro c hc
      rcases List.mem_cons.1 hc with rfl | hc
      · decide
      · exact ha c hc
  refine ⟨pathClean p, asciiOnly (Spec.queryPart q), ?_, h4, ?_, asciiOnly_ascii hqb,
    decode_asciiOnly _ _ (Nat.le_refl _) hqb, hqa⟩
  · rw [location_eq q h1 h2 h3]
    exact leadsTo_of _ h1
  · rw [← pathClean_canonical]
    exact (pathClean_good p).2.2.2

/-- A request that tries to be sent elsewhere: "//evil.com/%0d%0a\x/.." below an endpoint. -/
def exBe : Be :=
  { handlers := [{ path := "/evil.com".toList, matchPrefix := true, id := 0 }], serverNames := ["h"] }

def exReq : Req := { path := "//evil.com/\r\n\\x".toList, host := "h" }

example : location ['/'] ['/'] ['q', '=', Char.ofNat 233, '%', '4', '1'] = "/?q=%e9%41".toList ∧
    Spec.decode "/?q=%e9%41".toList = ['/', '?', 'q', '=', Char.ofNat 233, 'A'] := by decide +kernel

example : target (serve {} exBe exReq) = some "/evil.com/\r\n\\x".toList ∧
    location exReq.path "/evil.com/\r\n\\x".toList "a=b".toList = "/evil.com/%0D%0A%5Cx?a=b".toList ∧
    Spec.Bytes exReq.path := by
  refine ⟨by decide +kernel, by decide +kernel, ?_⟩
  unfold Spec.Bytes
  decide +kernel

/-- The method with which a browser follows a redirect (RFC 9110, section 15.4; the Fetch standard):
after 303 with GET, except for HEAD; after 301 and 302 POST becomes GET and the rest is repeated. -/
def Spec.nextMethod (status : Nat) (m : String) : Option String :=
  if status = 303 then some (if m = "HEAD" then "HEAD" else "GET")
  else if status = 301 ∨ status = 302 then some (if m = "POST" then "GET" else m)
  else if status = 307 ∨ status = 308 then some m
  else none

/-- C103. A redirect is followed with GET or HEAD: nothing that was sent is sent again. Redirects of
GET and HEAD are permanent. -/
theorem redirect_method (m : String) :
    Spec.nextMethod (status m) m = some (if m = "HEAD" then "HEAD" else "GET") ∧
    (m = "GET" ∨ m = "HEAD" → status m = 301) := by
  unfold status Spec.nextMethod
  by_cases h1 : m = "GET"
  · subst h1; decide
  · by_cases h2 : m = "HEAD"
    · subst h2; decide
    · simp [h1, h2]

example : Spec.nextMethod (status "PUT") "PUT" = some "GET" := by decide

/-! ## C104 -/

/-- The client follows a redirect: it asks for the path named by the Location, with GET if the
status is 303 and with the same method otherwise. -/
def Spec.Follow (c : Ctx) (be : Be) (query : Str) (r r' : Req) : Prop :=
  ∃ p, target (serve c be r) = some p ∧
    r' = { r with
      path := Spec.decode ((location r.path p query).takeWhile (· ≠ '?'))
      method := if status r.method = 303 then "GET" else r.method }

/-- A path that ends with two slashes. -/
def Spec.TwoSlashes (p : Str) : Prop := ∃ t, p = t ++ ['/', '/']

/-- Configurations whose redirects end: no endpoint or prefix ends with two slashes, document roots
are absolute and not the names of files, and a backend without addresses has no overrides with
addresses. -/
structure Spec.Tame (c : Ctx) (be : Be) : Prop where
  handlers : ∀ h ∈ be.handlers, ¬ Spec.TwoSlashes h.path
  prefixes : ∀ o ∈ be.overrides, ∀ p ∈ o.paths, ¬ Spec.TwoSlashes p
  roots : ∀ root, root = be.docRoot ∨ (∃ o ∈ be.overrides, o.docRoot = root) → root ≠ [] →
    root.head? = some '/' ∧
      (c.stat (Verif.Http.Spec.fileIn root []) = none ∨ c.stat (Verif.Http.Spec.fileIn root []) = some .dir)
  addresses : be.addresses = [] → ∀ o ∈ be.overrides, o.addresses = []

theorem follow_path {c : Ctx} {be : Be} {q : Str} {r r' : Req} (hb : Spec.Bytes r.path)
    (h : Spec.Follow c be q r r') :
    ∃ p, Why c be r p ∧ r'.path = pathClean p ∧ r'.host = r.host ∧ Spec.Bytes r'.path := by
  obtain ⟨p, ht, rfl⟩ := h
  have hw := redirect_why ht
  obtain ⟨h1, h2, h3, _⟩ := why_shape hb hw
  have hcb := clean_bytes h1
  have hp : Spec.decode ((location r.path p q).takeWhile (· ≠ '?')) = pathClean p := by
    rw [location_eq q h1 h2 h3]
    have hq : asciiOnly (Spec.queryPart q) = Spec.queryPart (asciiOnly q) := by
      unfold Spec.queryPart
      by_cases hq : q = []
      · subst hq; rfl
      · have : asciiOnly q ≠ [] := by
          cases q with
          | nil => exact absurd rfl hq
          | cons a t =>
            simp only [asciiOnly, List.flatMap_cons]
            split <;> simp
        rw [if_neg hq, if_neg this]; rfl
    rw [hq, (take_path (fun c hc => (escape_range hcb c hc).2.2.2.1) _).1]
    exact decode_escape hcb
  exact ⟨p, hw, hp, rfl, by rw [hp]; exact hcb⟩

/-- Adding a slash to a canonical path that has none at its end. -/
theorem canon_add {q : Str} (hq : pathClean q = q) (hl : q.getLast? ≠ some '/') :
    pathClean (q ++ ['/']) = q ++ ['/'] := by
  have h := hq
  rw [pathClean_canonical] at h ⊢
  unfold clean at h ⊢
  have e : resolve (splitSlash (q ++ ['/'])) [] = resolve (splitSlash q) [] := segs_slash q
  rw [e]
  simp only [hl, decide_false] at h
  have hne : resolve (splitSlash q) [] ≠ [] := by
    intro hx
    rw [hx] at h
    rw [← h] at hl
    simp [render, List.intercalate] at hl
  conv => rhs; rw [← h]
  simp [render, hne]

/-- Dropping the slash at the end of a canonical path other than the root. -/
theorem canon_drop {x : Str} (hq : pathClean (x ++ ['/']) = x ++ ['/']) (hx : x ≠ []) :
    pathClean x = x ∧ x.getLast? ≠ some '/' := by
  have hp := Verif.Path.segs_proper x
  have e : resolve (splitSlash (x ++ ['/'])) [] = resolve (splitSlash x) [] := segs_slash x
  have h := hq
  rw [pathClean_canonical] at h
  unfold clean at h
  rw [e] at h
  have hl : (x ++ ['/']).getLast? = some '/' := by simp
  simp only [hl, decide_true] at h
  have hne : resolve (splitSlash x) [] ≠ [] := by
    intro hy
    rw [hy] at h
    simp [render, List.intercalate] at h
    exact hx (by simpa using h)
  have hx' : x = render (resolve (splitSlash x) []) false := by
    have : render (resolve (splitSlash x) []) true = render (resolve (splitSlash x) []) false ++ ['/'] := by
      simp [render, hne]
    rw [this] at h
    exact (List.append_cancel_right h).symm
  have hlast : x.getLast? ≠ some '/' := by
    intro hc
    rw [hx'] at hc
    rcases (Verif.Path.render_last _ false hp).mp hc with h | h
    · cases h
    · exact hne h
  refine ⟨?_, hlast⟩
  rw [pathClean_canonical]
  unfold clean
  simp only [hlast, decide_false]
  exact hx'.symm

theorem prefix_slash {a q : Str} : a <+: q ++ ['/'] ↔ a <+: q ∨ a = q ++ ['/'] := by
  constructor
  · rintro ⟨t, ht⟩
    rcases List.eq_nil_or_concat t with rfl | ⟨t', x, rfl⟩
    · right; simpa using ht
    · left
      rw [List.concat_eq_append, ← List.append_assoc] at ht
      exact ⟨t', (List.append_inj' ht rfl).1⟩
  · rintro (⟨t, rfl⟩ | rfl)
    · exact ⟨t ++ ['/'], by simp⟩
    · exact List.prefix_refl _

theorem matchPrefixes_slash {q : Str} {ps : List Str} (hp : ∀ p ∈ ps, ¬ Spec.TwoSlashes p) :
    matchPrefixes (q ++ ['/']) ps =
      match matchPrefixes q ps with
      | none => none
      | some none => some (some (q ++ ['/']))
      | some (some pre) => some (some pre) := by
  induction ps with
  | nil => rfl
  | cons a t ih =>
    have ht := ih (fun p h => hp p (List.mem_cons_of_mem _ h))
    have h2 : ¬ (q ++ ['/'] ++ ['/'] = a) := by
      rintro rfl; exact hp (q ++ ['/'] ++ ['/']) (by simp) ⟨q, by simp⟩
    rw [matchPrefixes, matchPrefixes, if_neg h2]
    by_cases h1 : q ++ ['/'] = a
    · subst h1
      simp
    · rw [if_neg h1]
      by_cases h3 : a <+: q
      · have h4 : a <+: q ++ ['/'] := prefix_slash.mpr (.inl h3)
        rw [if_pos (List.isPrefixOf_iff_prefix.mpr h3), if_pos (List.isPrefixOf_iff_prefix.mpr h4)]
      · have h4 : ¬ a <+: q ++ ['/'] := by
          intro h
          rcases prefix_slash.mp h with h | h
          · exact h3 h
          · exact h1 h.symm
        rw [if_neg (by simpa using h4), if_neg (by simpa using h3), ht]

theorem choose_slash {q : Str} {os : List Override} (hp : ∀ o ∈ os, ∀ p ∈ o.paths, ¬ Spec.TwoSlashes p) : ∀ n,
    match chooseOverride q n os with
    | .redirect _ => (∃ o ∈ os, chooseOverride (q ++ ['/']) n os = .static o.docRoot (q ++ ['/'])) ∨
        ∃ i, ∃ o ∈ os, o.addresses ≠ [] ∧ chooseOverride (q ++ ['/']) n os = .addresses i o
    | ch => chooseOverride (q ++ ['/']) n os = ch := by
  induction os with
  | nil => intro n; rfl
  | cons o t ih =>
    intro n
    have ht := ih (fun o h => hp o (List.mem_cons_of_mem _ h)) (n + 1)
    have hm := matchPrefixes_slash (q := q) (hp o (by simp))
    rw [chooseOverride, chooseOverride, hm]
    cases hx : matchPrefixes q o.paths with
    | none =>
      dsimp only
      cases hc : chooseOverride q (n + 1) t with
      | redirect p =>
        rw [hc] at ht
        dsimp only at ht ⊢
        rcases ht with ⟨o', h1, h2⟩ | ⟨i, o', h1, h2⟩
        · exact .inl ⟨o', List.mem_cons_of_mem _ h1, h2⟩
        · exact .inr ⟨i, o', List.mem_cons_of_mem _ h1, h2⟩
      | none => rw [hc] at ht; exact ht
      | static a b => rw [hc] at ht; exact ht
      | addresses a b => rw [hc] at ht; exact ht
    | some y =>
      cases y with
      | none =>
        dsimp only
        by_cases ha : o.addresses = []
        · rw [if_pos ha]; exact .inl ⟨o, by simp, rfl⟩
        · rw [if_neg ha]; exact .inr ⟨n, o, by simp, ha, rfl⟩
      | some pre =>
        dsimp only
        by_cases ha : o.addresses = []
        · rw [if_pos ha]
        · rw [if_neg ha]

theorem join_slash {root p : Str} (hr : root.head? = some '/') : join root (p ++ ['/']) = join root p := by
  cases root with
  | nil => cases hr
  | cons a t =>
    simp only [List.head?_cons, Option.some.injEq] at hr
    subst hr
    rw [Verif.Http.join_eq _ _ t rfl, Verif.Http.join_eq _ _ t rfl, Verif.Path.split_append_slash,
      Verif.Path.resolve_append]
    simp [resolve]

theorem join_nil {root : Str} (hr : root.head? = some '/') : join root [] = Verif.Http.Spec.fileIn root [] := by
  cases root with
  | nil => cases hr
  | cons a t =>
    simp only [List.head?_cons, Option.some.injEq] at hr
    subst hr
    rw [Verif.Http.join_eq _ _ t rfl]
    simp [Verif.Http.Spec.fileIn, splitSlash, resolve]

theorem strip_slash {root pre q : Str} (hr : root.head? = some '/') (hp : pre <+: q) :
    join root (strip pre (q ++ ['/'])) = join root (strip pre q) := by
  obtain ⟨x, rfl⟩ := hp
  unfold strip
  have h1 : pre.isPrefixOf (pre ++ x ++ ['/']) = true := by simp
  have h2 : pre.isPrefixOf (pre ++ x) = true := by simp
  have d1 : (pre ++ x ++ ['/']).drop pre.length = x ++ ['/'] := by simp [List.append_assoc]
  have d2 : (pre ++ x).drop pre.length = x := by simp
  simp only [h1, h2, d1, d2, if_true]
  cases x with
  | nil => simp
  | cons a t =>
    by_cases ha : a = '/'
    · subst ha
      simp only [List.cons_append, List.isPrefixOf, BEq.rfl, Bool.true_and, if_true, List.drop_succ_cons, List.drop_zero]
      exact join_slash hr
    · have : ('/' == a) = false := by simpa using fun h => ha h.symm
      simp only [List.cons_append, List.isPrefixOf, this, Bool.false_and, Bool.false_eq_true, if_false]
      rw [← List.cons_append]
      exact join_slash hr

theorem strip_self (q : Str) : strip q q = [] := by
  unfold strip
  simp

theorem strip_root : strip [] ['/'] = [] := by decide

theorem files_prefix {be : Be} {q root pre : Str} (h : Files be q root pre) : pre <+: q := by
  cases h with
  | «local» => exact List.nil_prefix
  | override _ _ _ hch =>
    have := Verif.Http.choose_spec q be.overrides 0
    rw [hch] at this
    obtain ⟨_, _, _, _, _, _, h⟩ := this
    exact h
  | own => exact List.nil_prefix

theorem files_root {be : Be} {q root pre : Str} (h : Files be q root pre) :
    root = be.docRoot ∨ ∃ o ∈ be.overrides, o.docRoot = root := by
  cases h with
  | «local» => exact .inl rfl
  | override _ _ _ hch =>
    have := Verif.Http.choose_spec q be.overrides 0
    rw [hch] at this
    obtain ⟨i, o, h1, _, h3, _⟩ := this
    exact .inr ⟨o, List.mem_of_getElem? h1.1, h3⟩
  | own => exact .inl rfl

/-- The files used for a path and for the path with a slash are the same unless the slash selects
another override. -/
theorem files_slash {c : Ctx} {be : Be} (ht : Spec.Tame c be) {q root pre root' pre' : Str}
    (hno : ∀ p, be.reverse = true → chooseOverride q 0 be.overrides ≠ .redirect p)
    (h1 : Files be q root pre) (h2 : Files be (q ++ ['/']) root' pre') : root' = root ∧ pre' = pre := by
  have hc := choose_slash (q := q) ht.prefixes 0
  have hsame : be.reverse = true → chooseOverride (q ++ ['/']) 0 be.overrides = chooseOverride q 0 be.overrides := by
    intro hrev
    have := hno
    cases hx : chooseOverride q 0 be.overrides with
    | redirect p => exact absurd hx (hno p hrev)
    | none => rw [hx] at hc; exact hc
    | static a b => rw [hx] at hc; exact hc
    | addresses a b => rw [hx] at hc; exact hc
  cases h1 with
  | «local» h1 =>
    cases h2 with
    | «local» => exact ⟨rfl, rfl⟩
    | override _ _ h => rw [h] at h1; cases h1
    | own h => rw [h] at h1; cases h1
  | override _ _ h1 e1 =>
    cases h2 with
    | «local» h => rw [h] at h1; cases h1
    | override _ _ h e2 => rw [hsame h, e1] at e2; cases e2; exact ⟨rfl, rfl⟩
    | own h _ e2 =>
      rw [hsame h, e1] at e2
      rcases e2 with e2 | ⟨_, _, e2⟩ <;> cases e2
  | own h1 _ e1 =>
    cases h2 with
    | «local» h => rw [h] at h1; cases h1
    | override _ _ h e2 =>
      rw [hsame h] at e2
      rcases e1 with e1 | ⟨_, _, e1⟩ <;> rw [e1] at e2 <;> cases e2
    | own => exact ⟨rfl, rfl⟩

/-- An override chosen because a slash was added leads to a document root, not to a file below it. -/
theorem redirect_then {c : Ctx} {be : Be} (ht : Spec.Tame c be) {q p root pre : Str} (hrev : be.reverse = true)
    (hch : chooseOverride q 0 be.overrides = .redirect p) (hf : Files be (q ++ ['/']) root pre) (hroot : root ≠ []) :
    c.stat (join root (strip pre (q ++ ['/']))) = none ∨ c.stat (join root (strip pre (q ++ ['/']))) = some .dir := by
  have hc := choose_slash (q := q) ht.prefixes 0
  rw [hch] at hc
  dsimp only at hc
  have hr := ht.roots root (files_root hf) hroot
  rcases hc with ⟨o, ho, e⟩ | ⟨i, o, ho, hne, e⟩
  · cases hf with
    | «local» h => rw [h] at hrev; cases hrev
    | override _ _ _ e2 =>
      rw [e] at e2
      cases e2
      rw [strip_self, join_nil hr.1]
      exact hr.2
    | own _ _ e2 => rw [e] at e2; rcases e2 with e2 | ⟨_, _, e2⟩ <;> cases e2
  · cases hf with
    | «local» h => rw [h] at hrev; cases hrev
    | override _ _ _ e2 => rw [e] at e2; cases e2
    | own _ ha _ => exact absurd (ht.addresses ha o ho) hne

theorem noHandler_not {c : Ctx} {be : Be} {r : Req} (hn : NoHandler c be r) {h : Handler} (hm : h ∈ be.handlers)
    (hh : h.host = "" ∨ h.host = c.hostFromReq r.host) : h.path ≠ pathClean r.path := by
  intro hp
  have := List.find?_eq_none.mp hn h hm
  exact this (decide_eq_true ⟨hh, .inl hp⟩)

/-- After a redirect of a request with a canonical path there is no other. -/
theorem stop {c : Ctx} {be : Be} (ht : Spec.Tame c be) {r r' : Req} {p p' : Str} (hc : pathClean r.path = r.path)
    (hw : Why c be r p) (hp : r'.path = pathClean p) (hh : r'.host = r.host) (hw' : Why c be r' p') : False := by
  have hc' : pathClean r'.path = r'.path := by rw [hp]; exact (pathClean_good p).2.2.2
  have two : ∀ q : Str, Spec.TwoSlashes (q ++ ['/'] ++ ['/']) := fun q => ⟨q, by simp⟩
  -- the new path ends with a slash
  have ends : ∀ q : Str, r'.path = q ++ ['/'] →
      ∃ root pre k, NoHandler c be r' ∧ Files be r'.path root pre ∧ root ≠ [] ∧
        c.stat (join root (strip pre r'.path)) = some k ∧ k ≠ .dir := by
    intro q hq
    cases hw' with
    | clean h => exact absurd hc' h
    | handler h _ hm _ hpath =>
      rw [hc', hq] at hpath
      exact absurd (hpath ▸ two q) (ht.handlers h hm)
    | override _ _ _ hch =>
      obtain ⟨_, o, ho, hmem⟩ := override_target hch
      rw [hc', hq] at hmem
      exact absurd (two q) (ht.prefixes o ho _ hmem)
    | dir _ _ _ _ _ _ _ _ hl => rw [hq] at hl; simp at hl
    | file root pre k hn _ hf hroot _ hst hk _ => exact ⟨root, pre, k, hn, hf, hroot, hst, hk⟩
  cases hw with
  | clean h => exact h hc
  | handler h hn hm hhost hpath =>
    rw [hc] at hp hpath
    have hl : r.path.getLast? ≠ some '/' := by
      intro hl
      rw [last_split hl] at hpath
      exact ht.handlers h hm (hpath ▸ two _)
    rw [canon_add hc hl] at hp
    obtain ⟨root, pre, k, hn', _⟩ := ends _ hp
    refine noHandler_not hn' hm (by rw [hh]; exact hhost) ?_
    rw [hc', hp, hpath]
  | override _ hn hrev hch =>
    rw [hc] at hch
    obtain ⟨rfl, o, ho, hmem⟩ := override_target hch
    have hl : r.path.getLast? ≠ some '/' := by
      intro hl
      rw [last_split hl] at hmem
      exact ht.prefixes o ho _ hmem (two _)
    rw [canon_add hc hl] at hp
    obtain ⟨root, pre, k, _, hf, hroot, hst, hk⟩ := ends _ hp
    rw [hp] at hf hst
    rcases redirect_then ht hrev hch hf hroot with e | e
    · rw [hst] at e; cases e
    · rw [hst] at e; cases e; exact hk rfl
  | dir root pre hn hs hf hroot _ hst hl =>
    rw [canon_add hc hl] at hp
    obtain ⟨root', pre', k, _, hf', hroot', hst', hk⟩ := ends _ hp
    rw [hp] at hf' hst'
    have hr := ht.roots root (files_root hf) hroot
    by_cases hred : ∃ p, be.reverse = true ∧ chooseOverride r.path 0 be.overrides = .redirect p
    · obtain ⟨p, hrev, hch⟩ := hred
      rcases redirect_then ht hrev hch hf' hroot' with e | e
      · rw [hst'] at e; cases e
      · rw [hst'] at e; cases e; exact hk rfl
    · obtain ⟨rfl, rfl⟩ := files_slash ht (fun p h1 h2 => hred ⟨p, h1, h2⟩) hf hf'
      rw [strip_slash hr.1 (files_prefix hf), hst] at hst'
      cases hst'
      exact hk rfl
  | file root pre k hn hs hf hroot _ hst hk hl =>
    have hr := ht.roots root (files_root hf) hroot
    have hsp := last_split hl
    by_cases hx : r.path.dropLast = []
    · -- the root itself
      rw [hx] at hsp
      have hpre := files_prefix hf
      rw [hsp] at hpre hst
      have hstrip : strip pre ([] ++ ['/']) = [] := by
        obtain ⟨t, e⟩ := hpre
        cases pre with
        | nil => exact strip_root
        | cons a pre =>
          simp only [List.cons_append, List.nil_append, List.cons.injEq, List.append_eq_nil_iff] at e
          obtain ⟨rfl, rfl, rfl⟩ := e
          decide
      rw [hstrip, join_nil hr.1] at hst
      rcases hr.2 with e | e
      · rw [hst] at e; cases e
      · rw [hst] at e; cases e; exact hk rfl
    · have hcx := hc
      rw [hsp] at hcx
      obtain ⟨hcd, hld⟩ := canon_drop hcx hx
      rw [hcd] at hp
      rw [hsp] at hf hst
      rw [← hp] at hf hst hld hsp
      cases hw' with
      | clean h => exact h hc'
      | handler h _ hm hhost hpath =>
        rw [hh] at hhost
        refine noHandler_not hn hm hhost ?_
        rw [hc, hpath, hc', ← hsp]
      | override _ _ hrev hch =>
        rw [hc'] at hch
        rcases redirect_then ht hrev hch hf hroot with e | e
        · rw [hst] at e; cases e
        · rw [hst] at e; cases e; exact hk rfl
      | dir root' pre' _ _ hf' hroot' _ hst' _ =>
        by_cases hred : ∃ p, be.reverse = true ∧ chooseOverride r'.path 0 be.overrides = .redirect p
        · obtain ⟨p, hrev, hch⟩ := hred
          rcases redirect_then ht hrev hch hf hroot with e | e
          · rw [hst] at e; cases e
          · rw [hst] at e; cases e; exact hk rfl
        · obtain ⟨rfl, rfl⟩ := files_slash ht (fun p h1 h2 => hred ⟨p, h1, h2⟩) hf' hf
          rw [strip_slash hr.1 (files_prefix hf'), hst'] at hst
          cases hst
          exact hk rfl
      | file _ _ _ _ _ _ _ _ _ _ hl' => exact hld hl'

/-- C104. With a tame configuration a client that follows permanent redirects gets another answer
after at most two of them, whatever it asked for. -/
theorem redirects_end_partial (c : Ctx) (be : Be) (q : Str) (ht : Spec.Tame c be) (r r1 r2 : Req)
    (hb : Spec.Bytes r.path) (h1 : Spec.Follow c be q r r1) (h2 : Spec.Follow c be q r1 r2) :
    target (serve c be r2) = none := by
  obtain ⟨p1, _, hp1, hh1, hb1⟩ := follow_path hb h1
  obtain ⟨p2, hw2, hp2, hh2, hb2⟩ := follow_path hb1 h2
  cases hx : target (serve c be r2) with
  | none => rfl
  | some p =>
    have hc : pathClean r1.path = r1.path := by rw [hp1]; exact (pathClean_good p1).2.2.2
    exact (stop ht hc hw2 hp2 hh2 (redirect_why hx)).elim

/-- Both redirects happen: "/./d" is cleaned, then the directory gets its slash. -/
def dirCtx : Ctx :=
  { stat := fun f => if f = "/www/d".toList ∨ f = "/www".toList then some .dir
      else if f = "/www/d/index.html".toList then some .regular else none }

def dirBe : Be := { reverse := false, docRoot := "/www".toList }

example : Spec.Tame dirCtx dirBe ∧ target (serve dirCtx dirBe { path := "/./d".toList }) = some "/d".toList ∧
    target (serve dirCtx dirBe { path := "/d".toList }) = some "/d/".toList ∧
    target (serve dirCtx dirBe { path := "/d/".toList }) = none := by
  refine ⟨⟨by simp [dirBe], by simp [dirBe], ?_, by simp [dirBe]⟩, by decide +kernel, by decide +kernel, by decide +kernel⟩
  intro root hr _
  rcases hr with rfl | ⟨o, ho, _⟩
  · exact ⟨rfl, .inr (by decide +kernel)⟩
  · cases ho

/-- C104, violated. The document root of an override is the name of a file: "/x/" is sent to "/x"
and "/x" to "/x/". -/
theorem redirects_end_violated : ∃ c be q r r', Spec.Bytes r.path ∧
    Spec.Follow c be q r r' ∧ Spec.Follow c be q r' r := by
  refine ⟨{ stat := fun f => if f = "/f".toList then some .regular else none },
    { serverNames := ["h"], addresses := ["a"], overrides := [{ paths := ["/x/".toList], docRoot := "/f".toList }] }, [],
    { path := "/x".toList, host := "h" }, { path := "/x/".toList, host := "h" }, ?_,
    ⟨"/x/".toList, by decide +kernel, ?_⟩, ⟨"/x".toList, by decide +kernel, ?_⟩⟩
  · unfold Spec.Bytes; decide +kernel
  · have : Spec.decode ((location "/x".toList "/x/".toList []).takeWhile (· ≠ '?')) = "/x/".toList := by decide +kernel
    rw [this]; rfl
  · have : Spec.decode ((location "/x/".toList "/x".toList []).takeWhile (· ≠ '?')) = "/x".toList := by decide +kernel
    rw [this]; rfl

end Verif.Redirect
