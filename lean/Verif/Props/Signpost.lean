import Verif.Model.Signpost
/-!
# C166: the login page says where a user is and where they go
-/
namespace Verif.Signpost

namespace Spec

def hexVal (c : Char) : Nat := if c.isDigit then c.toNat - 48 else c.toNat - 55

/-- Percent-decoding, to bytes. -/
def decode : Str → List UInt8
  | '%' :: a :: b :: s => UInt8.ofNat (16 * hexVal a + hexVal b) :: decode s
  | c :: s => String.utf8EncodeChar c ++ decode s
  | [] => []

/-- UTF-8. -/
def bytes (s : Str) : List UInt8 := s.flatMap String.utf8EncodeChar

/-- The host and port of an https URL. -/
def authority (url : Str) : Str := (url.drop 8).takeWhile (· ≠ '/')

/-- Where a browser goes: the name, after decoding and conversion to ASCII, the port, and the rest. -/
def visit (asc : List UInt8 → Str) (url : Str) : Str × Str × Str :=
  let a := authority url
  let name := a.takeWhile (· ≠ ':')
  let port := (a.dropWhile (· ≠ ':')).drop 1
  (asc (decode name), if port = [] then "443".toList else port, (url.drop 8).dropWhile (· ≠ '/'))

/-- A name of a host in ASCII. -/
def Name (n : Str) : Prop := ∀ c ∈ n, c.isAlphanum = true ∨ c = '-' ∨ c = '.'

/-- A name of a host in Unicode: no delimiters of URLs. -/
def UniName (u : Str) : Prop := ∀ c ∈ u, c ≠ '/' ∧ c ≠ ':' ∧ c ≠ '%' ∧ c ≠ '[' ∧ c ≠ ']'

def Port (p : Str) : Prop := p ≠ [] ∧ ∀ c ∈ p, c.isDigit = true

/-- The conversions of names are inverse to each other. -/
def Inverse (uni : Str → Option Str) (asc : List UInt8 → Str) : Prop :=
  ∀ n, Name n → asc (bytes n) = n ∧ ∀ u, uni n = some u → UniName u ∧ asc (bytes u) = n

/-- The providers with a name of their own, and the beginnings of their addresses. -/
def sites : List (String × String × String) :=
  [("google", "https://accounts.google.com/", "Continue with Google"),
    ("facebook", "https://facebook.com/", "Continue with Facebook"),
    ("github", "https://github.com/", "Continue with GitHub")]

end Spec

/-! ## Escaping -/

theorem pct_decode (b : UInt8) (s : Str) : Spec.decode (pct b ++ s) = b :: Spec.decode s := by
  have h : ∀ n, n < 256 → UInt8.ofNat (16 * Spec.hexVal (hexDigit (n / 16)) + Spec.hexVal (hexDigit (n % 16))) = UInt8.ofNat n := by
    decide +kernel
  show UInt8.ofNat _ :: _ = _
  rw [h b.toNat b.toNat_lt]
  simp

theorem pcts_decode (bs : List UInt8) (s : Str) : Spec.decode (bs.flatMap pct ++ s) = bs ++ Spec.decode s := by
  induction bs with
  | nil => rfl
  | cons b bs ih => rw [List.flatMap_cons, List.append_assoc, pct_decode, ih]; rfl

theorem decode_plain {c : Char} (h : c ≠ '%') (s : Str) : Spec.decode (c :: s) = String.utf8EncodeChar c ++ Spec.decode s := by
  cases s with
  | nil =>
    rw [Spec.decode]
    intro _ _ _ _ e
    cases e
  | cons a s =>
    rw [Spec.decode]
    intro _ _ _ e
    exact fun _ => h e

theorem hostOK_pct : hostOK '%' = false := by decide
theorem hostOK_slash : hostOK '/' = false := by decide

theorem escape_decode (h : Str) : Spec.decode (escapeHost h) = Spec.bytes h := by
  induction h with
  | nil => rfl
  | cons c h ih =>
    unfold escapeHost Spec.bytes at *
    rw [List.flatMap_cons, List.flatMap_cons]
    by_cases hc : hostOK c = true
    · rw [if_pos hc, List.singleton_append, decode_plain, ih]
      rintro rfl
      rw [hostOK_pct] at hc
      cases hc
    · rw [if_neg hc, pcts_decode, ih]

theorem hexDigit_ok : ∀ n, n < 16 → hexDigit n ≠ '/' ∧ hexDigit n ≠ ':' := by decide +kernel

theorem pct_safe (b : UInt8) : ∀ c ∈ pct b, c ≠ '/' ∧ c ≠ ':' := by
  intro c hc
  have hb := b.toNat_lt
  simp only [pct, List.mem_cons, List.not_mem_nil, or_false] at hc
  rcases hc with rfl | rfl | rfl
  · decide
  · exact hexDigit_ok _ (by omega)
  · exact hexDigit_ok _ (by omega)

theorem escape_slash (h : Str) : '/' ∉ escapeHost h := by
  intro hm
  obtain ⟨c, -, hc⟩ := List.mem_flatMap.1 hm
  split at hc <;> rename_i hk
  · obtain rfl := List.mem_singleton.1 hc
    rw [hostOK_slash] at hk
    cases hk
  · obtain ⟨b, -, hb⟩ := List.mem_flatMap.1 hc
    exact (pct_safe b _ hb).1 rfl

theorem escape_colon {h : Str} (hh : ':' ∉ h) : ':' ∉ escapeHost h := by
  intro hm
  obtain ⟨c, hch, hc⟩ := List.mem_flatMap.1 hm
  split at hc
  · obtain rfl := List.mem_singleton.1 hc
    exact hh hch
  · obtain ⟨b, -, hb⟩ := List.mem_flatMap.1 hc
    exact (pct_safe b _ hb).2 rfl

theorem escape_append (a b : Str) : escapeHost (a ++ b) = escapeHost a ++ escapeHost b := List.flatMap_append

theorem escape_keeps {h : Str} (hh : ∀ c ∈ h, hostOK c = true) : escapeHost h = h := by
  induction h with
  | nil => rfl
  | cons c h ih =>
    have : escapeHost (c :: h) = (if hostOK c then [c] else (String.utf8EncodeChar c).flatMap pct) ++ escapeHost h := rfl
    rw [this, if_pos (hh c List.mem_cons_self), ih fun d hd => hh d (List.mem_cons_of_mem _ hd)]
    rfl

theorem span_at {P : Char → Bool} {a : Str} {c : Char} {b : Str} (ha : ∀ x ∈ a, P x = true) (hc : P c = false) :
    (a ++ c :: b).takeWhile P = a ∧ (a ++ c :: b).dropWhile P = c :: b := by
  induction a with
  | nil => simp [hc]
  | cons x a ih =>
    have hx := ha x List.mem_cons_self
    obtain ⟨h1, h2⟩ := ih fun y hy => ha y (List.mem_cons_of_mem _ hy)
    rw [List.cons_append]
    exact ⟨by rw [List.takeWhile_cons_of_pos hx, h1], by rw [List.dropWhile_cons_of_pos hx, h2]⟩

theorem span_all {P : Char → Bool} {a : Str} (ha : ∀ x ∈ a, P x = true) : a.takeWhile P = a ∧ a.dropWhile P = [] := by
  induction a with
  | nil => exact ⟨rfl, rfl⟩
  | cons x a ih =>
    have hx := ha x List.mem_cons_self
    obtain ⟨h1, h2⟩ := ih fun y hy => ha y (List.mem_cons_of_mem _ hy)
    exact ⟨by rw [List.takeWhile_cons_of_pos hx, h1], by rw [List.dropWhile_cons_of_pos hx, h2]⟩

theorem drop8 (s : Str) : ("https://".toList ++ s).drop 8 = s := rfl

theorem urlString_parts (host r : Str) :
    Spec.authority (urlString host ('/' :: r)) = escapeHost host ∧
    ((urlString host ('/' :: r)).drop 8).dropWhile (· ≠ '/') = '/' :: r := by
  have h : (urlString host ('/' :: r)).drop 8 = escapeHost host ++ '/' :: r := by
    unfold urlString
    rw [List.append_assoc, drop8]
  unfold Spec.authority
  rw [h]
  refine span_at (fun x hx => ?_) (by simp)
  have := escape_slash host
  simp only [decide_eq_true_eq, ne_eq]
  rintro rfl
  exact this hx

theorem visit_plain {asc : List UInt8 → Str} {u r : Str} (hu : ':' ∉ u) :
    Spec.visit asc (urlString u ('/' :: r)) = (asc (Spec.bytes u), "443".toList, '/' :: r) := by
  obtain ⟨h1, h2⟩ := urlString_parts u r
  unfold Spec.visit
  rw [h1, h2]
  dsimp only
  have := escape_colon hu
  obtain ⟨h3, h4⟩ := span_all (P := fun c => decide (c ≠ ':')) (a := escapeHost u) (fun x hx => by
    simp only [decide_eq_true_eq, ne_eq]
    rintro rfl
    exact this hx)
  rw [h3, h4, escape_decode]
  rfl

theorem alnum_ne {c : Char} (h : c.isAlphanum = true) : c ≠ ':' ∧ c ≠ '[' ∧ c ≠ '/' ∧ c ≠ '%' := by
  refine ⟨?_, ?_, ?_, ?_⟩ <;> (rintro rfl; revert h; decide)

theorem name_ne {n : Str} (h : Spec.Name n) : ':' ∉ n ∧ '[' ∉ n := by
  refine ⟨fun hm => ?_, fun hm => ?_⟩
  · rcases h _ hm with h | h | h
    · exact (alnum_ne h).1 rfl
    · revert h; decide
    · revert h; decide
  · rcases h _ hm with h | h | h
    · exact (alnum_ne h).2.1 rfl
    · revert h; decide
    · revert h; decide

theorem no_bracket {n : Str} (h : '[' ∉ n) : ¬ (n.head? = some '[' ∧ n.getLast? = some ']') := by
  rintro ⟨h1, -⟩
  cases n with
  | nil => cases h1
  | cons c n =>
    simp at h1
    exact h (by simp [h1])

theorem hostname_name {n : Str} (h : Spec.Name n) : hostname n = n := by
  obtain ⟨h1, h2⟩ := name_ne h
  have : cutPort n = n := by
    unfold cutPort
    split <;> rename_i heq
    · exfalso
      have : ':' ∈ n.reverse.dropWhile Char.isDigit := by rw [heq]; exact List.mem_cons_self
      exact h1 (List.mem_reverse.1 ((List.dropWhile_sublist _).subset this))
    · rfl
  unfold hostname
  dsimp only
  rw [this, if_neg (no_bracket h2)]

theorem hostname_port {n p : Str} (h : Spec.Name n) (hp : Spec.Port p) : hostname (n ++ ':' :: p) = n := by
  obtain ⟨h1, h2⟩ := name_ne h
  have hr : (n ++ ':' :: p).reverse.dropWhile Char.isDigit = ':' :: n.reverse := by
    have : (n ++ ':' :: p).reverse = p.reverse ++ ':' :: n.reverse := by simp
    rw [this]
    exact (span_at (fun x hx => hp.2 x (List.mem_reverse.1 hx)) (by decide)).2
  have : cutPort (n ++ ':' :: p) = n := by
    unfold cutPort
    rw [hr]
    exact List.reverse_reverse _
  unfold hostname
  dsimp only
  rw [this, if_neg (no_bracket h2)]

/-- The same for addresses in brackets, with and without port. -/
theorem hostname_brackets (a p : Str) (hp : Spec.Port p) :
    hostname ('[' :: (a ++ [']'])) = a ∧ hostname ('[' :: (a ++ [']']) ++ ':' :: p) = a := by
  have e1 : cutPort ('[' :: (a ++ [']'])) = '[' :: (a ++ [']']) := by
    unfold cutPort
    have : ('[' :: (a ++ [']'])).reverse.dropWhile Char.isDigit = ']' :: (a.reverse ++ ['[']) := by
      simp [show Char.isDigit ']' = false from by decide]
    rw [this]
    split <;> rename_i h
    · exact absurd (List.cons.inj h).1 (by decide)
    · rfl
  have e2 : cutPort ('[' :: (a ++ [']']) ++ ':' :: p) = '[' :: (a ++ [']']) := by
    unfold cutPort
    have : ('[' :: (a ++ [']']) ++ ':' :: p).reverse.dropWhile Char.isDigit = ':' :: ('[' :: (a ++ [']'])).reverse := by
      have hr : ('[' :: (a ++ [']']) ++ ':' :: p).reverse = p.reverse ++ ':' :: ('[' :: (a ++ [']'])).reverse := by simp
      rw [hr]
      exact (span_at (fun x hx => hp.2 x (List.mem_reverse.1 hx)) (by decide)).2
    rw [this]
    exact List.reverse_reverse _
  have hb : ('[' :: (a ++ [']'])).head? = some '[' ∧ ('[' :: (a ++ [']'])).getLast? = some ']' := by
    refine ⟨rfl, ?_⟩
    rw [← List.cons_append]
    exact List.getLast?_concat
  have hd : (('[' :: (a ++ [']'])).drop 1).dropLast = a := by simp
  unfold hostname
  dsimp only
  rw [e1, e2, if_pos hb, hd]
  exact ⟨rfl, rfl⟩

/-! ## C166: the link -/

/-- C166 (partial: the port is the usual one). The link on the page leads to what was asked for. -/
theorem link_partial (uni : Str → Option Str) (asc : List UInt8 → Str) (hi : Spec.Inverse uni asc) (n r : Str)
    (hn : Spec.Name n) : Spec.visit asc (link uni n ('/' :: r)) = (n, "443".toList, '/' :: r) := by
  unfold link
  rw [hostname_name hn]
  cases hu : uni n with
  | none =>
    dsimp only
    rw [visit_plain (name_ne hn).1, (hi n hn).1]
  | some u =>
    obtain ⟨h1, h2⟩ := (hi n hn).2 u hu
    dsimp only
    rw [visit_plain (fun hm => (h1 _ hm).2.1 rfl), h2]

/-- C166, the missing part. Where the proxy is used on another port, the link on the page leads to port 443. -/
theorem link_violated (uni : Str → Option Str) (asc : List UInt8 → Str) (hi : Spec.Inverse uni asc) (n p r : Str)
    (hn : Spec.Name n) (hp : Spec.Port p) (hu : (uni n).isSome) :
    Spec.visit asc (link uni (n ++ ':' :: p) ('/' :: r)) = (n, "443".toList, '/' :: r) := by
  unfold link
  rw [hostname_port hn hp]
  cases hu' : uni n with
  | none => rw [hu'] at hu; cases hu
  | some u =>
    obtain ⟨h1, h2⟩ := (hi n hn).2 u hu'
    dsimp only
    rw [visit_plain (fun hm => (h1 _ hm).2.1 rfl), h2]

/-- A name has nothing to escape. -/
theorem name_kept {n : Str} (h : Spec.Name n) : escapeHost n = n := by
  refine escape_keeps fun c hc => ?_
  unfold hostOK
  rcases h c hc with h | rfl | rfl
  · rw [h]; rfl
  · decide
  · decide

/-- C166. The login itself comes back to what was asked for, with any port. -/
theorem target_right (asc : List UInt8 → Str) (n p r : Str) (hn : Spec.Name n) (hp : Spec.Port p)
    (ha : asc (Spec.bytes n) = n) :
    Spec.visit asc (target n ('/' :: r)) = (n, "443".toList, '/' :: r) ∧
    Spec.visit asc (target (n ++ ':' :: p) ('/' :: r)) = (n, p, '/' :: r) := by
  refine ⟨by unfold target; rw [visit_plain (name_ne hn).1, ha], ?_⟩
  obtain ⟨h1, h2⟩ := urlString_parts (n ++ ':' :: p) r
  have he : escapeHost (n ++ ':' :: p) = n ++ ':' :: p := by
    rw [escape_append, name_kept hn, escape_keeps]
    intro c hc
    unfold hostOK
    rcases List.mem_cons.1 hc with rfl | hc
    · decide
    · have := hp.2 c hc
      unfold Char.isAlphanum
      rw [this]
      simp
  unfold Spec.visit target
  rw [h1, h2, he]
  dsimp only
  obtain ⟨h3, h4⟩ := span_at (P := fun c => decide (c ≠ ':')) (a := n) (c := ':') (b := p) (fun x hx => by
    simp only [decide_eq_true_eq, ne_eq]
    rintro rfl
    exact (name_ne hn).1 hx) (by decide)
  rw [h3, h4, ← name_kept hn, escape_decode, ha, List.drop_one, List.tail_cons, if_neg hp.1, name_kept hn]

/-! ## C166: the text -/

/-- C166. The text is the address, or the beginning of it, and never longer than 100 bytes. -/
theorem text_beginning (url : Str) : (text url).length ≤ 100 ∧
    (url.length ≤ 100 → text url = url) ∧
    (100 < url.length → ∃ a b, url = a ++ b ∧ a.length = 97 ∧ text url = a ++ "...".toList) := by
  unfold text
  split <;> rename_i h
  · refine ⟨?_, fun h' => absurd h' (by omega), fun _ => ⟨url.take 97, url.drop 97, (List.take_append_drop _ _).symm, ?_, rfl⟩⟩
    · simp; omega
    · simp; omega
  · exact ⟨by omega, fun _ => rfl, fun h' => absurd h' h⟩

/-- C166. The whole name of the host can be read, unless it is longer than 88 characters. -/
theorem host_shown (n r : Str) (hn : Spec.Name n) (hl : n.length ≤ 88) :
    ("https://".toList ++ n ++ ['/']) <+: text (urlString n ('/' :: r)) := by
  have hu : urlString n ('/' :: r) = ("https://".toList ++ n ++ ['/']) ++ r := by
    unfold urlString
    rw [name_kept hn]
    simp
  rw [hu]
  generalize hx : "https://".toList ++ n ++ ['/'] = x
  have hxl : x.length ≤ 97 := by
    rw [← hx]
    simp
    omega
  unfold text
  split
  · rw [List.take_append, List.take_of_length_le hxl, List.append_assoc]
    exact List.prefix_append _ _
  · exact List.prefix_append _ _

theorem escape_pct {u : Str} {c : Char} (hc : c ∈ u) (h : hostOK c = false) : '%' ∈ escapeHost u := by
  refine List.mem_flatMap.2 ⟨c, hc, ?_⟩
  rw [if_neg (by rw [h]; decide)]
  cases hb : String.utf8EncodeChar c with
  | nil =>
    exfalso
    have := String.length_utf8EncodeChar c
    rw [hb] at this
    have h0 := Char.utf8Size_pos c
    simp at this
    omega
  | cons b bs => exact List.mem_flatMap.2 ⟨b, List.mem_cons_self, List.mem_cons_self⟩

/-- C166, violated: names with characters outside of ASCII, which are converted in order to be read, are shown as neither
what they are nor what they are in ASCII. -/
theorem unreadable_violated (uni : Str → Option Str) (n u r : Str) (hn : Spec.Name n) (hu : uni n = some u)
    (hun : Spec.UniName u) {c : Char} (hc : c ∈ u) (hk : hostOK c = false) :
    Spec.authority (link uni n ('/' :: r)) ≠ u ∧ Spec.authority (link uni n ('/' :: r)) ≠ n := by
  unfold link
  rw [hostname_name hn, hu]
  dsimp only
  rw [(urlString_parts u r).1]
  have hp := escape_pct hc hk
  refine ⟨fun e => ?_, fun e => ?_⟩
  · rw [e] at hp
    exact (hun _ hp).2.2.1 rfl
  · rw [e] at hp
    rcases hn _ hp with h | h | h
    · exact (alnum_ne h).2.2.2 rfl
    · revert h; decide
    · revert h; decide

/-! ## C166: the provider -/

theorem prefix_while {P : Char → Bool} {site url : Str} (h : ∀ c ∈ site, P c = true) :
    site <+: url ↔ site <+: url.takeWhile P := by
  induction site generalizing url with
  | nil => simp
  | cons c site ih =>
    have hc := h c List.mem_cons_self
    cases url with
    | nil => simp
    | cons d url =>
      by_cases hd : P d = true
      · rw [List.takeWhile_cons_of_pos hd, List.cons_prefix_cons, List.cons_prefix_cons,
          ih fun x hx => h x (List.mem_cons_of_mem _ hx)]
      · rw [List.takeWhile_cons_of_neg hd, List.cons_prefix_cons]
        constructor
        · rintro ⟨rfl, -⟩
          exact absurd hc hd
        · intro e
          cases List.prefix_nil.1 e

theorem prefix_query {site ep q : Str} (h : '?' ∉ site) : site <+: ep ++ '?' :: q ↔ site <+: ep := by
  have hs : ∀ c ∈ site, (fun c => decide (c ≠ '?')) c = true := by
    intro c hc
    simp only [decide_eq_true_eq, ne_eq]
    rintro rfl
    exact h hc
  rw [prefix_while hs, prefix_while (url := ep) hs]
  have : (ep ++ '?' :: q).takeWhile (fun c => decide (c ≠ '?')) = ep.takeWhile (fun c => decide (c ≠ '?')) := by
    induction ep with
    | nil => rfl
    | cons c ep ih =>
      by_cases hc : c = '?'
      · subst hc; rfl
      · rw [List.cons_append, List.takeWhile_cons_of_pos (by simp [hc]), List.takeWhile_cons_of_pos (by simp [hc]), ih]
  rw [this]

theorem disjoint {a b url : Str} (ha : a <+: url) (hb : b <+: url) (h1 : ¬ a <+: b) (h2 : ¬ b <+: a) : False := by
  rcases List.prefix_or_prefix_of_prefix ha hb with h | h
  · exact h1 h
  · exact h2 h

theorem pick {A B C : Prop} [Decidable A] [Decidable B] [Decidable C] {G F H L : Str} (d1 : G ≠ F) (d2 : G ≠ H) (d3 : F ≠ H)
    (e1 : L ≠ G) (e2 : L ≠ F) (e3 : L ≠ H) (k1 : A → ¬ B) (k2 : A → ¬ C) (k3 : B → ¬ C) :
    ((if A then G else if B then F else if C then H else L) = G ↔ A) ∧
    ((if A then G else if B then F else if C then H else L) = F ↔ B) ∧
    ((if A then G else if B then F else if C then H else L) = H ↔ C) := by
  by_cases a : A
  · rw [if_pos a]
    exact ⟨iff_of_true rfl a, iff_of_false d1 (k1 a), iff_of_false d2 (k2 a)⟩
  · rw [if_neg a]
    by_cases b : B
    · rw [if_pos b]
      exact ⟨iff_of_false d1.symm a, iff_of_true rfl b, iff_of_false d3 (k3 b)⟩
    · rw [if_neg b]
      by_cases c : C
      · rw [if_pos c]
        exact ⟨iff_of_false d2.symm a, iff_of_false d3.symm b, iff_of_true rfl c⟩
      · rw [if_neg c]
        exact ⟨iff_of_false e1 a, iff_of_false e2 b, iff_of_false e3 c⟩

/-- The button for an address. -/
theorem button_guess (url : Str) : ∀ s ∈ Spec.sites,
    (button (guessIDP url) = s.2.2.toList ↔ s.2.1.toList <+: url) := by
  have bg : button "google".toList = "Continue with Google".toList := by decide +kernel
  have bf : button "facebook".toList = "Continue with Facebook".toList := by decide +kernel
  have bh : button "github".toList = "Continue with GitHub".toList := by decide +kernel
  have bn : button [] = "Login".toList := by decide +kernel
  have h := pick (A := "https://accounts.google.com/".toList.isPrefixOf url = true)
    (B := "https://facebook.com/".toList.isPrefixOf url = true) (C := "https://github.com/".toList.isPrefixOf url = true)
    (G := "Continue with Google".toList) (F := "Continue with Facebook".toList) (H := "Continue with GitHub".toList)
    (L := "Login".toList) (by decide +kernel) (by decide +kernel) (by decide +kernel) (by decide +kernel)
    (by decide +kernel) (by decide +kernel)
    (fun a b => disjoint (List.isPrefixOf_iff_prefix.1 a) (List.isPrefixOf_iff_prefix.1 b) (by decide +kernel) (by decide +kernel))
    (fun a b => disjoint (List.isPrefixOf_iff_prefix.1 a) (List.isPrefixOf_iff_prefix.1 b) (by decide +kernel) (by decide +kernel))
    (fun a b => disjoint (List.isPrefixOf_iff_prefix.1 a) (List.isPrefixOf_iff_prefix.1 b) (by decide +kernel) (by decide +kernel))
  have hb : button (guessIDP url) = (if "https://accounts.google.com/".toList.isPrefixOf url = true then
      "Continue with Google".toList else if "https://facebook.com/".toList.isPrefixOf url = true then
      "Continue with Facebook".toList else if "https://github.com/".toList.isPrefixOf url = true then
      "Continue with GitHub".toList else "Login".toList) := by
    unfold guessIDP
    rw [apply_ite button, apply_ite button, apply_ite button, bg, bf, bh, bn]
  rw [← hb] at h
  intro s hs
  have hc : s = ("google", "https://accounts.google.com/", "Continue with Google") ∨
      s = ("facebook", "https://facebook.com/", "Continue with Facebook") ∨
      s = ("github", "https://github.com/", "Continue with GitHub") := by simpa only [Spec.sites, List.mem_cons, List.not_mem_nil, or_false] using hs
  rcases hc with rfl | rfl | rfl
  · exact h.1.trans List.isPrefixOf_iff_prefix
  · exact h.2.1.trans List.isPrefixOf_iff_prefix
  · exact h.2.2.trans List.isPrefixOf_iff_prefix

theorem sites_plain : ∀ s ∈ Spec.sites, '?' ∉ s.2.1.toList ∧ '#' ∉ s.2.1.toList := by decide +kernel

/-- C166 (partial: no discovery document is used). The button has the name of a provider if and only if this is where the
login leads. -/
theorem named_partial (auth q : Str) (doc : Option Str) (s : String × String × String) (hs : s ∈ Spec.sites) :
    ∃ l, location (.oidc [] auth) doc q = some l ∧
      (button (actualIDP (.oidc [] auth)) = s.2.2.toList ↔ s.2.1.toList <+: l) := by
  refine ⟨auth ++ '?' :: q, rfl, ?_⟩
  rw [prefix_query (sites_plain s hs).1]
  exact button_guess auth s hs

/-- C166. The same for SAML. -/
theorem named_saml (u q : Str) (doc : Option Str) (s : String × String × String) (hs : s ∈ Spec.sites) :
    ∃ l, location (.saml u) doc q = some l ∧ (button (actualIDP (.saml u)) = s.2.2.toList ↔ s.2.1.toList <+: l) := by
  refine ⟨_, rfl, ?_⟩
  rw [List.append_assoc, List.cons_append, prefix_query (sites_plain s hs).1, ← prefix_while]
  · exact button_guess u s hs
  · intro c hc
    obtain ⟨h1, h2⟩ := sites_plain s hs
    simp only [decide_eq_true_eq, ne_eq]
    constructor
    · rintro rfl; exact h1 hc
    · rintro rfl; exact h2 hc

/-- C166, violated: with a discovery document alone, no provider is ever named, whatever the document says. -/
theorem unnamed_violated (d ep q : Str) (hd : d ≠ []) :
    location (.oidc d []) (some ep) q = some (ep ++ '?' :: q) ∧ button (actualIDP (.oidc d [])) = "Login".toList := by
  refine ⟨?_, ?_⟩
  rotate_left
  · show button (guessIDP []) = _
    decide +kernel
  show (if d ≠ [] then some ep else _).map _ = _
  rw [if_pos hd]
  rfl

/-- C166, violated: with a discovery document and an endpoint in the configuration, the button has the name of the latter,
and leads to the former. -/
theorem misnamed_violated (d auth ep q : Str) (hd : d ≠ []) (s : String × String × String) (hs : s ∈ Spec.sites)
    (ha : s.2.1.toList <+: auth) (he : ¬ s.2.1.toList <+: ep) :
    button (actualIDP (.oidc d auth)) = s.2.2.toList ∧
    ∃ l, location (.oidc d auth) (some ep) q = some l ∧ ep <+: l ∧ ¬ s.2.1.toList <+: l := by
  refine ⟨(button_guess auth s hs).2 ha, ep ++ '?' :: q, ?_, List.prefix_append _ _, ?_⟩
  · show (if d ≠ [] then some ep else _).map _ = _
    rw [if_pos hd]
    rfl
  · rw [prefix_query (sites_plain s hs).1]
    exact he

/-! ## Examples -/

namespace Ex

def uni (n : Str) : Option Str := if n = "xn--caf-dma.example".toList then some "café.example".toList else some n

def asc (b : List UInt8) : Str :=
  if b = Spec.bytes "café.example".toList then "xn--caf-dma.example".toList else b.map fun x => Char.ofNat x.toNat

end Ex

example : Spec.Name "xn--caf-dma.example".toList := by unfold Spec.Name; decide +kernel
example : Spec.Port "8443".toList := by unfold Spec.Port; decide +kernel
example : Spec.UniName "café.example".toList := by unfold Spec.UniName; decide +kernel
example : String.ofList (link Ex.uni "xn--caf-dma.example:8443".toList "/a?b".toList) = "https://caf%C3%A9.example/a?b" := by
  decide +kernel
example : Spec.visit Ex.asc (link Ex.uni "xn--caf-dma.example".toList "/a?b".toList) =
    ("xn--caf-dma.example".toList, "443".toList, "/a?b".toList) := by decide +kernel
example : Spec.visit Ex.asc (link Ex.uni "a.example:8443".toList "/a?b".toList) =
    ("a.example".toList, "443".toList, "/a?b".toList) := by decide +kernel
example : Spec.visit Ex.asc (target "a.example:8443".toList "/a?b".toList) =
    ("a.example".toList, "8443".toList, "/a?b".toList) := by decide +kernel
example : hostOK 'é' = false := by decide +kernel
example : (text (urlString "a.example".toList ('/' :: List.replicate 200 'x'))).length = 100 := by decide +kernel
example : button (actualIDP (.oidc [] "https://github.com/login/oauth/authorize".toList)) = "Continue with GitHub".toList := by
  decide +kernel
example : button (actualIDP (.oidc "https://evil.example/".toList "https://accounts.google.com/o/oauth2/v2/auth".toList)) =
    "Continue with Google".toList := by decide +kernel

end Verif.Signpost
