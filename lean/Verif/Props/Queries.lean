import Verif.Model.Queries
import Verif.Props.OcspHttp

/-!
# C152: What the parties of a login tell each other arrives

Statements: identity providers read from the URL exactly what the proxy was configured with and has made for this
login, whatever characters there are in it; clients of the local OIDC server read exactly the code and their state;
parameters that a configured URL has of its own are kept; forms and XML documents say what they should.
-/

namespace Verif.Queries
open Verif.Path (Str)
open Verif.OcspHttp (unhex)
open Verif.Redirect (upperHex)

namespace Spec

/-- What a browser sends as the query, when it is sent to a URL: what is between the first question mark and the
fragment. -/
def query (url : Str) : Str := ((url.takeWhile (· ≠ '#')).dropWhile (· ≠ '?')).drop 1

def hexValue (c : Char) : Option Nat :=
  "0123456789abcdef".toList.idxOf? c <|> "0123456789ABCDEF".toList.idxOf? c

/-- The URL standard: bytes that are written with a percent sign, and blanks; anything else stands for itself. -/
def decode : Str → Str
  | [] => []
  | '%' :: a :: b :: t =>
    match hexValue a, hexValue b with
    | some x, some y => Char.ofNat (16 * x + y) :: decode t
    | _, _ => '%' :: decode (a :: b :: t)
  | c :: t => (if c = '+' then ' ' else c) :: decode t

def split (q : Str) : List Str :=
  q.foldr (fun c acc => if c = '&' then [] :: acc else match acc with | [] => [[c]] | f :: fs => (c :: f) :: fs) [[]]

/-- The URL standard, application/x-www-form-urlencoded parsing. -/
def params (q : Str) : List (Str × Str) :=
  ((split q).filter (· ≠ [])).map fun f => (decode (f.takeWhile (· ≠ '=')), decode ((f.dropWhile (· ≠ '=')).drop 1))

/-- What the party finds to which a browser is sent with a URL. -/
def received (url : Str) : List (Str × Str) := params (query url)

/-- All values that a party finds under a name. -/
def under (k : Str) (l : List (Str × Str)) : List Str := l.filterMap fun p => if p.1 = k then some p.2 else none

/-- Every percent sign is followed by two hexadecimal digits. -/
def Escapes (s : Str) : Prop :=
  ∀ a b, s = a ++ '%' :: b → ∃ x y t, b = x :: y :: t ∧ (hexValue x).isSome ∧ (hexValue y).isSome

/-- A query about which everyone agrees. -/
def WellFormed (q : Str) : Prop :=
  ∀ f ∈ split q, ';' ∉ f ∧ Escapes (f.takeWhile (· ≠ '=')) ∧ Escapes ((f.dropWhile (· ≠ '=')).drop 1)

/-- All characters are bytes. -/
def Bytes (s : Str) : Prop := ∀ c ∈ s, c.toNat < 256

/-- The scope that is asked for: what is configured, separated by blanks. -/
def scope (l : List Str) : Str := if l = [] then "openid email".toList else [' '].intercalate l

/-- What an identity provider should be asked. -/
def asked (l : Login) : List (Str × Str) :=
  [("response_type".toList, "code".toList), ("client_id".toList, l.clientID), ("scope".toList, scope l.scopes),
   ("redirect_uri".toList, l.redirectURL), ("state".toList, l.nonce), ("nonce".toList, l.nonce),
   ("code_challenge".toList, l.challenge), ("code_challenge_method".toList, "S256".toList)] ++
  (if l.hostedDomain = [] then [] else [("hd".toList, l.hostedDomain)]) ++
  (if l.hint = [] then [] else [("login_hint".toList, l.hint)]) ++
  (if l.selectAccount then [("prompt".toList, "select_account".toList)] else [])

/-- Letters, digits, and the characters '-' and '_': hexadecimal digits and base64. -/
def Simple (s : Str) : Prop := ∀ c ∈ s, c.isAlphanum ∨ c = '-' ∨ c = '_'

/-- What everything in a login has to be: bytes. -/
def Proper (l : Login) : Prop :=
  Bytes l.clientID ∧ (∀ s ∈ l.scopes, Bytes s) ∧ Bytes l.redirectURL ∧ Bytes l.hostedDomain ∧ Bytes l.hint ∧
    Simple l.nonce ∧ Simple l.challenge

/-! ### XML -/

/-- The characters that references stand for. -/
def reference : Str → Option Char
  | ['a', 'm', 'p'] => some '&'
  | ['l', 't'] => some '<'
  | ['g', 't'] => some '>'
  | ['q', 'u', 'o', 't'] => some '"'
  | ['a', 'p', 'o', 's'] => some '\''
  | '#' :: 'x' :: h => (h.mapM hexValue).map fun l => Char.ofNat (l.foldl (fun n d => 16 * n + d) 0)
  | '#' :: d => (d.mapM fun c => "0123456789".toList.idxOf? c).map fun l => Char.ofNat (l.foldl (fun n d => 10 * n + d) 0)
  | _ => none

/-- The text of an attribute or of an element; `ref` is the part of a reference that has been read, backwards. -/
def text (ref : Option Str) : Str → Option Str
  | [] => if ref = none then some [] else none
  | c :: t =>
    match ref with
    | none => if c = '&' then text (some []) t else if c = '<' then none else (text none t).map (c :: ·)
    | some r =>
      if c = ';' then
        match reference r.reverse with
        | some x => (text none t).map (x :: ·)
        | none => none
      else text (some (c :: r)) t

/-- The attributes of a start tag, up to its end; at most `n`. -/
def attributes : Nat → Str → Option (List (Str × Str) × Str)
  | 0, _ => none
  | n + 1, s =>
    match s with
    | '>' :: rest => some ([], rest)
    | ' ' :: s =>
      match (s.dropWhile (· ≠ '=')).drop 1 with
      | '"' :: v =>
        match text none (v.takeWhile (· ≠ '"')), attributes n ((v.dropWhile (· ≠ '"')).drop 1) with
        | some x, some (l, rest) => some ((s.takeWhile (· ≠ '='), x) :: l, rest)
        | _, _ => none
      | _ => none
    | _ => none

/-- A start tag of this name. -/
def startTag (name : Str) (s : Str) : Option (List (Str × Str) × Str) :=
  match s with
  | '<' :: t => if t.take name.length = name then attributes t.length (t.drop name.length) else none
  | _ => none

/-- What a provider needs to find in a request, SAML core 3.4.1. -/
def request (s : Str) : Option AuthnRequest :=
  match startTag "AuthnRequest".toList s with
  | none => none
  | some (a, s) =>
    match startTag "Issuer".toList s with
    | none => none
    | some (b, s) =>
      match text none (s.takeWhile (· ≠ '<')) with
      | none => none
      | some e =>
        if s.dropWhile (· ≠ '<') = "</Issuer></AuthnRequest>".toList ∧
            a.lookup "xmlns".toList = some "urn:oasis:names:tc:SAML:2.0:protocol".toList ∧
            a.lookup "Version".toList = some "2.0".toList ∧
            a.lookup "ProtocolBinding".toList = some "urn:oasis:names:tc:SAML:2.0:bindings:HTTP-POST".toList ∧
            b.lookup "xmlns".toList = some "urn:oasis:names:tc:SAML:2.0:assertion".toList ∧
            b.lookup "Format".toList = some "urn:oasis:names:tc:SAML:2.0:nameid-format:entity".toList then
          match a.lookup "ID".toList, a.lookup "IssueInstant".toList, a.lookup "Destination".toList,
            a.lookup "AssertionConsumerServiceURL".toList with
          | some i, some t, some d, some u => some ⟨i, t, d, u, e⟩
          | _, _, _, _ => none
        else none

/-- The characters of XML 1.0 (section 2.2). -/
def XmlChar (c : Char) : Prop :=
  c.toNat = 9 ∨ c.toNat = 10 ∨ c.toNat = 13 ∨ (0x20 ≤ c.toNat ∧ c.toNat ≤ 0xD7FF) ∨
    (0xE000 ≤ c.toNat ∧ c.toNat ≤ 0xFFFD) ∨ 0x10000 ≤ c.toNat

instance (c : Char) : Decidable (XmlChar c) := by unfold XmlChar; infer_instance

/-- XML can express the text. -/
def Xml (s : Str) : Prop := ∀ c ∈ s, XmlChar c

end Spec

/-! ## Escaping -/

theorem upperHex_fin : ∀ n : Fin 16, unhex (upperHex n.1) = some n.1 ∧ Spec.hexValue (upperHex n.1) = some n.1 ∧
    plainChar (upperHex n.1) = true := by decide +kernel

def Safe (c : Char) : Prop := c ≠ '&' ∧ c ≠ '=' ∧ c ≠ ';' ∧ c ≠ '#' ∧ c ≠ '?'

instance (c : Char) : Decidable (Safe c) := by unfold Safe; infer_instance

theorem plain_safe {c : Char} (h : plainChar c = true) : Safe c ∧ c ≠ '%' ∧ c ≠ '+' := by
  have aux : ∀ x, plainChar x = false → c ≠ x := by rintro x hx rfl; rw [h] at hx; cases hx
  exact ⟨⟨aux _ (by decide), aux _ (by decide), aux _ (by decide), aux _ (by decide), aux _ (by decide)⟩,
    aux _ (by decide), aux _ (by decide)⟩

theorem escapeChar_safe {c : Char} (hc : c.toNat < 256) : ∀ x ∈ escapeChar c, Safe x := by
  intro x hx
  unfold escapeChar at hx
  split at hx
  · rename_i h; obtain rfl := List.mem_singleton.1 hx; exact (plain_safe h).1
  · split at hx
    · obtain rfl := List.mem_singleton.1 hx; decide
    · have h1 := (upperHex_fin ⟨c.toNat / 16, by omega⟩).2.2
      have h2 := (upperHex_fin ⟨c.toNat % 16, by omega⟩).2.2
      simp only [List.mem_cons, List.not_mem_nil, or_false] at hx
      rcases hx with rfl | rfl | rfl
      · decide
      · exact (plain_safe h1).1
      · exact (plain_safe h2).1

theorem escape_safe {s : Str} (hs : Spec.Bytes s) : ∀ x ∈ escape s, Safe x := by
  intro x hx
  obtain ⟨c, hc, hx⟩ := List.mem_flatMap.1 hx
  exact escapeChar_safe (hs c hc) x hx

theorem unescape_other {c : Char} (h : c ≠ '%') (t : Str) :
    unescape (c :: t) = (unescape t).map ((if c = '+' then ' ' else c) :: ·) := by
  rw [unescape]
  · intro a b t' he; exact absurd he (by simp [h])
  · intro a he; exact absurd he (by simp [h])
  · intro he; exact absurd he (by simp [h])

theorem decode_other {c : Char} (h : c ≠ '%') (t : Str) :
    Spec.decode (c :: t) = (if c = '+' then ' ' else c) :: Spec.decode t := by
  rw [Spec.decode]
  intro a b t' he; exact absurd he (by simp [h])

theorem escapeChar_read {c : Char} (hc : c.toNat < 256) (t : Str) :
    unescape (escapeChar c ++ t) = (unescape t).map (c :: ·) ∧ Spec.decode (escapeChar c ++ t) = c :: Spec.decode t := by
  unfold escapeChar
  split
  · rename_i h
    obtain ⟨-, h1, h2⟩ := plain_safe h
    simp only [List.cons_append, List.nil_append]
    rw [unescape_other h1, decode_other h1, if_neg h2]
    exact ⟨rfl, rfl⟩
  · split
    · rename_i h
      simp only [List.cons_append, List.nil_append]
      rw [unescape_other (by decide), decode_other (by decide), if_pos rfl, h]
      exact ⟨rfl, rfl⟩
    · obtain ⟨h1, h2, -⟩ := upperHex_fin ⟨c.toNat / 16, by omega⟩
      obtain ⟨h3, h4, -⟩ := upperHex_fin ⟨c.toNat % 16, by omega⟩
      dsimp only at h1 h2 h3 h4
      have e : Char.ofNat (16 * (c.toNat / 16) + c.toNat % 16) = c := by
        rw [show 16 * (c.toNat / 16) + c.toNat % 16 = c.toNat by omega, Char.ofNat_toNat]
      simp only [List.cons_append, List.nil_append]
      constructor
      · rw [unescape, h1, h3]
        cases unescape t with
        | none => rfl
        | some r => dsimp only; rw [e]; rfl
      · rw [Spec.decode, h2, h4]
        dsimp only
        rw [e]

/-- What is escaped is read again, by the proxy and by everyone else. -/
theorem escape_read {s : Str} (hs : Spec.Bytes s) : unescape (escape s) = some s ∧ Spec.decode (escape s) = s := by
  induction s with
  | nil => exact ⟨rfl, rfl⟩
  | cons c s ih =>
    obtain ⟨h1, h2⟩ := escapeChar_read (hs c List.mem_cons_self) (escape s)
    obtain ⟨i1, i2⟩ := ih fun x hx => hs x (List.mem_cons_of_mem _ hx)
    have e : escape (c :: s) = escapeChar c ++ escape s := List.flatMap_cons
    rw [e, h1, h2, i1, i2]
    exact ⟨rfl, rfl⟩

theorem simple_plain {c : Char} (h : c.isAlphanum ∨ c = '-' ∨ c = '_') : plainChar c = true := by
  rcases h with h | rfl | rfl
  · have : ('a' ≤ c ∧ c ≤ 'z') ∨ ('A' ≤ c ∧ c ≤ 'Z') ∨ ('0' ≤ c ∧ c ≤ '9') := by
      simp only [Char.isAlphanum, Char.isAlpha, Char.isUpper, Char.isLower, Char.isDigit, Bool.or_eq_true,
        Bool.and_eq_true, decide_eq_true_eq] at h
      rcases h with (h | h) | h
      · exact .inr (.inl h)
      · exact .inl h
      · exact .inr (.inr h)
    unfold plainChar
    rcases this with ⟨a, b⟩ | ⟨a, b⟩ | ⟨a, b⟩ <;> simp [a, b]
  · decide
  · decide

theorem escape_simple {s : Str} (h : Spec.Simple s) : escape s = s := by
  induction s with
  | nil => rfl
  | cons c s ih =>
    have e : escape (c :: s) = escapeChar c ++ escape s := List.flatMap_cons
    rw [e, ih fun x hx => h x (List.mem_cons_of_mem _ hx), escapeChar, if_pos (simple_plain (h c List.mem_cons_self))]
    rfl

theorem simple_bytes {s : Str} (h : Spec.Simple s) : Spec.Bytes s := by
  intro c hc
  have h1 := h c hc
  rcases h1 with h1 | rfl | rfl
  · simp only [Char.isAlphanum, Char.isAlpha, Char.isUpper, Char.isLower, Char.isDigit, Bool.or_eq_true,
      Bool.and_eq_true, decide_eq_true_eq] at h1
    have : c ≤ 'z' ∨ c ≤ 'Z' ∨ c ≤ '9' := by
      rcases h1 with (h1 | h1) | h1
      · exact .inr (.inl h1.2)
      · exact .inl h1.2
      · exact .inr (.inr h1.2)
    rcases this with h | h | h
    · have : c.toNat ≤ 122 := h
      omega
    · have : c.toNat ≤ 90 := h
      omega
    · have : c.toNat ≤ 57 := h
      omega
  · decide
  · decide

/-! ## Queries -/

theorem cut_of {sep : Char} {s t : Str} (h : sep ∉ s) : cut sep (s ++ sep :: t) = (s, t) := by
  induction s with
  | nil => simp [cut]
  | cons c s ih =>
    rw [List.mem_cons, not_or] at h
    rw [List.cons_append, cut, if_neg (fun e => h.1 e.symm), ih h.2]

theorem cut_none {sep : Char} {s : Str} (h : sep ∉ s) : cut sep s = (s, []) := by
  induction s with
  | nil => rfl
  | cons c s ih =>
    rw [List.mem_cons, not_or] at h
    rw [cut, if_neg (fun e => h.1 e.symm), ih h.2]

theorem cut_spec (sep : Char) (s : Str) :
    cut sep s = (s.takeWhile (· ≠ sep), (s.dropWhile (· ≠ sep)).drop 1) := by
  induction s with
  | nil => rfl
  | cons c s ih =>
    by_cases h : c = sep
    · subst h; simp [cut]
    · rw [cut, if_neg h, ih]
      simp [h]

theorem cut_fst (sep : Char) (s : Str) : sep ∉ (cut sep s).1 := by
  induction s with
  | nil => simp [cut]
  | cons c s ih =>
    by_cases h : c = sep
    · simp [cut, h]
    · rw [cut, if_neg h]
      simp [ih, Ne.symm h]

theorem cut_mem (sep : Char) (s : Str) : (∀ c ∈ (cut sep s).1, c ∈ s) ∧ (∀ c ∈ (cut sep s).2, c ∈ s) := by
  induction s with
  | nil => simp [cut]
  | cons c s ih =>
    by_cases h : c = sep
    · simp only [cut, if_pos h]
      exact ⟨fun _ h => (nomatch h), fun x hx => List.mem_cons_of_mem _ hx⟩
    · rw [cut, if_neg h]
      refine ⟨fun x hx => ?_, fun x hx => List.mem_cons_of_mem _ (ih.2 x hx)⟩
      rcases List.mem_cons.1 hx with rfl | hx
      · exact List.mem_cons_self
      · exact List.mem_cons_of_mem _ (ih.1 x hx)

theorem fields_ne (sep : Char) (s : Str) : fields sep s ≠ [] := by
  cases s with
  | nil => simp [fields]
  | cons c s =>
    unfold fields
    split
    · simp
    · split <;> simp

theorem fields_none {sep : Char} {s : Str} (h : sep ∉ s) : fields sep s = [s] := by
  induction s with
  | nil => rfl
  | cons c s ih =>
    rw [List.mem_cons, not_or] at h
    rw [fields, if_neg (fun e => h.1 e.symm), ih h.2]

theorem fields_of {sep : Char} {s t : Str} (h : sep ∉ s) : fields sep (s ++ sep :: t) = s :: fields sep t := by
  induction s with
  | nil => simp [fields]
  | cons c s ih =>
    rw [List.mem_cons, not_or] at h
    rw [List.cons_append, fields, if_neg (fun e => h.1 e.symm), ih h.2]

theorem fields_split (q : Str) : fields '&' q = Spec.split q := by
  induction q with
  | nil => rfl
  | cons c q ih =>
    unfold Spec.split at ih ⊢
    rw [List.foldr_cons, ← ih, fields]
    split
    · rfl
    · rfl

theorem pair_fields {p : Pair} (h1 : Spec.Bytes p.1) (h2 : Spec.Bytes p.2) :
    '&' ∉ pairText p ∧ '=' ∉ escape p.1 ∧ ';' ∉ pairText p ∧ '#' ∉ pairText p ∧ '?' ∉ pairText p := by
  have a1 := escape_safe h1
  have a2 := escape_safe h2
  have aux : ∀ x, x ≠ '=' → (∀ c, Safe c → c ≠ x) → x ∉ pairText p := by
    intro x hx hs hm
    rw [pairText, List.mem_append, List.mem_cons] at hm
    rcases hm with hm | hm | hm
    · exact hs x (a1 x hm) rfl
    · exact hx hm
    · exact hs x (a2 x hm) rfl
  exact ⟨aux _ (by decide) fun c h => h.1, fun hm => (a1 _ hm).2.1 rfl, aux _ (by decide) fun c h => h.2.2.1,
    aux _ (by decide) fun c h => h.2.2.2.1, aux _ (by decide) fun c h => h.2.2.2.2⟩

theorem readPair_text {p : Pair} (h1 : Spec.Bytes p.1) (h2 : Spec.Bytes p.2) : readPair (pairText p) = some p := by
  obtain ⟨-, e1, e2, -⟩ := pair_fields h1 h2
  unfold readPair
  rw [if_neg e2, if_neg (by simp [pairText]), pairText, cut_of e1]
  dsimp only
  rw [(escape_read h1).1, (escape_read h2).1]

/-- Pairs of bytes. -/
def AllBytes (l : List Pair) : Prop := ∀ p ∈ l, Spec.Bytes p.1 ∧ Spec.Bytes p.2

theorem fields_join {l : List Pair} (h : AllBytes l) (hne : l ≠ []) : fields '&' (join (l.map pairText)) = l.map pairText := by
  induction l with
  | nil => exact absurd rfl hne
  | cons p l ih =>
    have hp := (pair_fields (h p List.mem_cons_self).1 (h p List.mem_cons_self).2).1
    cases l with
    | nil => exact fields_none hp
    | cons q l =>
      have := ih (fun x hx => h x (List.mem_cons_of_mem _ hx)) (by simp)
      simp only [List.map_cons] at this ⊢
      rw [join]
      · rw [fields_of hp, this]
      · simp

theorem join_no {l : List Pair} (h : AllBytes l) (x : Char) (hx : x ≠ '&') (hp : ∀ p ∈ l, x ∉ pairText p) :
    x ∉ join (l.map pairText) := by
  induction l with
  | nil => simp [join]
  | cons p l ih =>
    cases l with
    | nil => exact hp p List.mem_cons_self
    | cons q l =>
      have := ih (fun x hx => h x (List.mem_cons_of_mem _ hx)) (fun y hy => hp y (List.mem_cons_of_mem _ hy))
      simp only [List.map_cons] at this ⊢
      rw [join]
      · rw [List.mem_append, List.mem_cons, not_or, not_or]
        exact ⟨hp p List.mem_cons_self, hx, this⟩
      · simp

/-- Pairs in a query are read again, by everyone. -/
theorem join_read {l : List Pair} (h : AllBytes l) :
    parseQuery (join (l.map pairText)) = l ∧ Spec.params (join (l.map pairText)) = l := by
  cases l with
  | nil => exact ⟨rfl, rfl⟩
  | cons p l =>
    have hf := fields_join h (by simp)
    constructor
    · unfold parseQuery
      rw [hf]
      clear hf
      generalize p :: l = l at h ⊢
      induction l with
      | nil => rfl
      | cons p l ih =>
        rw [List.map_cons, List.filterMap_cons,
          readPair_text (h p List.mem_cons_self).1 (h p List.mem_cons_self).2]
        dsimp only
        rw [ih fun x hx => h x (List.mem_cons_of_mem _ hx)]
    · unfold Spec.params
      rw [← fields_split, hf]
      clear hf
      generalize p :: l = l at h ⊢
      induction l with
      | nil => rfl
      | cons p l ih =>
        obtain ⟨h1, h2⟩ := h p List.mem_cons_self
        have hc := cut_of (t := escape p.2) (pair_fields h1 h2).2.1
        rw [cut_spec] at hc
        obtain ⟨c1, c2⟩ := Prod.mk.inj hc
        rw [List.map_cons, List.filter_cons_of_pos (by simp [pairText]), List.map_cons,
          ih fun x hx => h x (List.mem_cons_of_mem _ hx)]
        rw [pairText, c1, c2, (escape_read h1).2, (escape_read h2).2]

theorem less_irrefl (s : Str) : less s s = false := by
  induction s with
  | nil => rfl
  | cons c s ih => simp [less, ih]

theorem insert_filter (k : Str) (p : Pair) (l : List Pair) :
    (insert p l).filter (·.1 = k) = (p :: l).filter (·.1 = k) := by
  induction l with
  | nil => rfl
  | cons q l ih =>
    unfold insert
    split
    · rename_i hl
      have hne : q.1 ≠ p.1 := by intro e; rw [e, less_irrefl] at hl; cases hl
      rw [List.filter_cons, ih]
      by_cases hp : p.1 = k
      · have hq : ¬ q.1 = k := by rw [← hp]; exact hne
        simp [hp, hq]
      · simp [hp, List.filter_cons]
    · rfl

theorem sort_filter (k : Str) (l : List Pair) : (sort l).filter (·.1 = k) = l.filter (·.1 = k) := by
  induction l with
  | nil => rfl
  | cons p l ih =>
    show (insert p (sort l)).filter _ = _
    rw [insert_filter, List.filter_cons, List.filter_cons, ih]

theorem insert_mem (p : Pair) (l : List Pair) (x : Pair) : x ∈ insert p l ↔ x = p ∨ x ∈ l := by
  induction l with
  | nil => simp [insert]
  | cons q l ih =>
    unfold insert
    split
    · rw [List.mem_cons, ih, List.mem_cons]
      constructor
      · rintro (h | h | h)
        · exact .inr (.inl h)
        · exact .inl h
        · exact .inr (.inr h)
      · rintro (h | h | h)
        · exact .inr (.inl h)
        · exact .inl h
        · exact .inr (.inr h)
    · exact List.mem_cons

theorem sort_mem (l : List Pair) (x : Pair) : x ∈ sort l ↔ x ∈ l := by
  induction l with
  | nil => rfl
  | cons p l ih =>
    show x ∈ insert p (sort l) ↔ _
    rw [insert_mem, ih, List.mem_cons]

theorem sort_bytes {l : List Pair} (h : AllBytes l) : AllBytes (sort l) :=
  fun p hp => h p ((sort_mem l p).1 hp)

theorem encode_read {l : List Pair} (h : AllBytes l) :
    parseQuery (encode l) = sort l ∧ Spec.params (encode l) = sort l :=
  join_read (sort_bytes h)

theorem encode_no {l : List Pair} (h : AllBytes l) : '#' ∉ encode l ∧ '?' ∉ encode l := by
  have hs := sort_bytes h
  exact ⟨join_no hs _ (by decide) fun p hp => (pair_fields (hs p hp).1 (hs p hp).2).2.2.2.1,
    join_no hs _ (by decide) fun p hp => (pair_fields (hs p hp).1 (hs p hp).2).2.2.2.2⟩

theorem under_values (k : Str) (l : List Pair) : Spec.under k l = values k l := by
  unfold Spec.under values
  induction l with
  | nil => rfl
  | cons p l ih =>
    by_cases hp : p.1 = k
    · simp [hp, ih]
    · simp [hp, ih]

theorem values_sort (k : Str) (l : List Pair) : values k (sort l) = values k l := by
  unfold values
  rw [sort_filter]

theorem values_set_same (k v : Str) (l : List Pair) : values k (set k v l) = [v] := by
  have : (del k l).filter (·.1 = k) = [] := by
    unfold del
    rw [List.filter_eq_nil_iff]
    intro p hp
    have := (List.mem_filter.1 hp).2
    simpa using this
  unfold values set
  rw [List.filter_cons_of_pos (by simp), this]
  rfl

theorem values_del_other {k j : Str} (h : j ≠ k) (l : List Pair) : values j (del k l) = values j l := by
  unfold values del
  rw [List.filter_filter]
  congr 1
  apply List.filter_congr
  intro p _
  by_cases hp : p.1 = j
  · simp [hp, h]
  · simp [hp]

theorem values_del_same (k : Str) (l : List Pair) : values k (del k l) = [] := by
  unfold values del
  rw [List.filter_filter, List.map_eq_nil_iff, List.filter_eq_nil_iff]
  intro p _
  simp

theorem values_set_other {k j : Str} (h : j ≠ k) (v : Str) (l : List Pair) : values j (set k v l) = values j l := by
  have : values j (set k v l) = values j (del k l) := by
    unfold values set
    rw [List.filter_cons_of_neg (by simpa using Ne.symm h)]
  rw [this, values_del_other h]

/-! ## Bytes -/

theorem unhex_lt {c : Char} {n : Nat} (h : unhex c = some n) : n < 16 :=
  OcspHttp.hexDigit_lt (OcspHttp.unhex_hexDigit h)

theorem ofNat_byte {n : Nat} (h : n < 256) : (Char.ofNat n).toNat < 256 := by
  have : ∀ n : Fin 256, (Char.ofNat n.1).toNat < 256 := by decide +kernel
  exact this ⟨n, h⟩

theorem unescape_bytes (s r : Str) (hs : Spec.Bytes s) (h : unescape s = some r) : Spec.Bytes r := by
  fun_induction unescape s generalizing r with
  | case1 => cases h; exact hs
  | case2 a b t x y q hq hy hx ih =>
    cases h
    have i := ih q (fun c hc => hs c (by simp [hc])) hq
    have := unhex_lt hx
    have := unhex_lt hy
    intro c hc
    rcases List.mem_cons.1 hc with rfl | hc
    · exact ofNat_byte (by omega)
    · exact i c hc
  | case3 => cases h
  | case4 => cases h
  | case5 => cases h
  | case6 c t h1 h2 h3 ih =>
    cases ht : unescape t with
    | none => rw [ht] at h; cases h
    | some q =>
      rw [ht] at h
      cases h
      intro x hx
      rcases List.mem_cons.1 hx with rfl | hx
      · split
        · decide
        · exact hs c List.mem_cons_self
      · exact ih q (fun c hc => hs c (by simp [hc])) ht x hx

theorem fields_mem (sep : Char) (s : Str) : ∀ f ∈ fields sep s, ∀ c ∈ f, c ∈ s := by
  induction s with
  | nil =>
    intro f hf c hc
    rw [fields, List.mem_singleton] at hf
    rw [hf] at hc
    cases hc
  | cons x s ih =>
    intro f hf c hc
    unfold fields at hf
    split at hf
    · rcases List.mem_cons.1 hf with rfl | hf
      · cases hc
      · exact List.mem_cons_of_mem _ (ih f hf c hc)
    · split at hf
      · rw [List.mem_singleton] at hf
        rw [hf, List.mem_singleton] at hc
        rw [hc]
        exact List.mem_cons_self
      · rename_i g gs he
        rcases List.mem_cons.1 hf with rfl | hf
        · rcases List.mem_cons.1 hc with rfl | hc
          · exact List.mem_cons_self
          · exact List.mem_cons_of_mem _ (ih g (by rw [he]; exact List.mem_cons_self) c hc)
        · exact List.mem_cons_of_mem _ (ih f (by rw [he]; exact List.mem_cons_of_mem _ hf) c hc)

theorem parse_bytes {q : Str} (h : Spec.Bytes q) : AllBytes (parseQuery q) := by
  intro p hp
  obtain ⟨f, hf, hr⟩ := List.mem_filterMap.1 hp
  have hb : Spec.Bytes f := fun c hc => h c (fields_mem '&' q f hf c hc)
  unfold readPair at hr
  split at hr
  · cases hr
  · split at hr
    · cases hr
    · split at hr
      · rename_i k v h1 h2
        cases hr
        exact ⟨unescape_bytes _ _ (fun c hc => hb c ((cut_mem '=' f).1 c hc)) h1,
          unescape_bytes _ _ (fun c hc => hb c ((cut_mem '=' f).2 c hc)) h2⟩
      · cases hr

theorem del_bytes {l : List Pair} (h : AllBytes l) (k : Str) : AllBytes (del k l) :=
  fun p hp => h p (List.mem_filter.1 hp).1

theorem set_bytes {l : List Pair} (h : AllBytes l) {k v : Str} (hk : Spec.Bytes k) (hv : Spec.Bytes v) :
    AllBytes (set k v l) := by
  intro p hp
  rcases List.mem_cons.1 hp with rfl | hp
  · exact ⟨hk, hv⟩
  · exact del_bytes h k p hp

/-! ## URLs -/

theorem query_cut (s : Str) : Spec.query s = (cut '?' (cut '#' s).1).2 := by
  rw [cut_spec, cut_spec]
  rfl

theorem query_parse (s : Str) : Spec.query s = (parseUrl s).query := query_cut s

theorem url_query (u : Url) (hb : '#' ∉ u.base) (hq : '?' ∉ u.base) (h : '#' ∉ u.query) :
    Spec.query u.text = u.query := by
  rw [query_cut]
  unfold Url.text
  have hmid : '#' ∉ u.base ++ (if u.force || decide (u.query ≠ []) then '?' :: u.query else []) := by
    rw [List.mem_append, not_or]
    refine ⟨hb, ?_⟩
    split
    · rw [List.mem_cons, not_or]
      exact ⟨by decide, h⟩
    · simp
  have hc : (cut '#' (u.base ++ ((if u.force || decide (u.query ≠ []) then '?' :: u.query else []) ++
      (if u.frag ≠ [] then '#' :: u.frag else [])))).1 =
      u.base ++ (if u.force || decide (u.query ≠ []) then '?' :: u.query else []) := by
    rw [← List.append_assoc]
    by_cases hf : u.frag ≠ []
    · rw [if_pos hf, cut_of hmid]
    · rw [if_neg hf, List.append_nil, cut_none hmid]
  rw [hc]
  split
  · rw [cut_of hq]
  · rename_i hn
    rw [List.append_nil, cut_none hq]
    simp only [Bool.or_eq_true, decide_eq_true_eq, not_or, Decidable.not_not] at hn
    exact hn.2.symm

theorem text_query (s q : Str) (h : '#' ∉ q) : Spec.query { parseUrl s with query := q }.text = q := by
  have hb : '#' ∉ (parseUrl s).base := fun hm => cut_fst '#' s ((cut_mem '?' _).1 _ hm)
  have hq : '?' ∉ (parseUrl s).base := cut_fst '?' _
  exact url_query { parseUrl s with query := q } hb hq h

theorem url_bytes {s : Str} (h : Spec.Bytes s) : Spec.Bytes (parseUrl s).query :=
  fun c hc => h c ((cut_mem '#' s).1 c ((cut_mem '?' _).2 c hc))

/-! ## What a URL has of its own -/

theorem hexValue_unhex (c : Char) (h : (Spec.hexValue c).isSome) : unhex c = Spec.hexValue c := by
  have key : ∀ x ∈ "0123456789abcdefABCDEF".toList, unhex x = Spec.hexValue x := by decide +kernel
  apply key
  have hm : c ∈ "0123456789abcdef".toList ∨ c ∈ "0123456789ABCDEF".toList := by
    unfold Spec.hexValue at h
    cases h1 : "0123456789abcdef".toList.idxOf? c with
    | some n =>
      left
      by_cases hm : c ∈ "0123456789abcdef".toList
      · exact hm
      · rw [List.idxOf?_eq_none_iff.2 hm] at h1; cases h1
    | none =>
      right
      rw [h1] at h
      by_cases hm : c ∈ "0123456789ABCDEF".toList
      · exact hm
      · rw [List.idxOf?_eq_none_iff.2 hm] at h; cases h
  have sub : (∀ x ∈ "0123456789abcdef".toList, x ∈ "0123456789abcdefABCDEF".toList) ∧
      (∀ x ∈ "0123456789ABCDEF".toList, x ∈ "0123456789abcdefABCDEF".toList) := by decide +kernel
  rcases hm with hm | hm
  · exact sub.1 c hm
  · exact sub.2 c hm

theorem escapes_tail {c : Char} {s : Str} (h : Spec.Escapes (c :: s)) : Spec.Escapes s := by
  intro a b he
  exact h (c :: a) b (by rw [he]; rfl)

theorem unescape_decode (s : Str) (h : Spec.Escapes s) : unescape s = some (Spec.decode s) := by
  fun_induction unescape s with
  | case1 => rfl
  | case2 a b t x y q hq hy hx ih =>
    obtain ⟨a', b', t', he, h1, h2⟩ := h [] (a :: b :: t) rfl
    cases he
    have i := ih (escapes_tail (escapes_tail (escapes_tail h)))
    rw [hexValue_unhex _ h1] at hx
    rw [hexValue_unhex _ h2] at hy
    rw [Spec.decode, hx, hy]
    dsimp only
    rw [hq] at i
    rw [Option.some.inj i]
  | case3 a b t hn ih =>
    exfalso
    obtain ⟨a', b', t', he, h1, h2⟩ := h [] (a :: b :: t) rfl
    cases he
    have i := ih (escapes_tail (escapes_tail (escapes_tail h)))
    obtain ⟨x, hx⟩ := Option.isSome_iff_exists.1 h1
    obtain ⟨y, hy⟩ := Option.isSome_iff_exists.1 h2
    exact hn x y _ (by rw [hexValue_unhex _ h1, hx]) (by rw [hexValue_unhex _ h2, hy]) i
  | case4 a =>
    obtain ⟨x, y, t, he, -⟩ := h [] [a] rfl
    cases he
  | case5 =>
    obtain ⟨x, y, t, he, -⟩ := h [] [] rfl
    cases he
  | case6 c t h1 h2 h3 ih =>
    rw [ih (escapes_tail h)]
    have hc : c ≠ '%' := by
      rintro rfl
      obtain ⟨x, y, t', he, -⟩ := h [] t rfl
      exact h1 x y t' rfl he
    rw [decode_other hc]
    rfl

theorem parse_params {q : Str} (h : Spec.WellFormed q) : parseQuery q = Spec.params q := by
  unfold Spec.WellFormed at h
  unfold parseQuery Spec.params
  rw [fields_split]
  generalize Spec.split q = l at h ⊢
  induction l with
  | nil => rfl
  | cons f l ih =>
    obtain ⟨h1, h2, h3⟩ := h f List.mem_cons_self
    have i := ih fun x hx => h x (List.mem_cons_of_mem _ hx)
    by_cases hf : f = []
    · rw [List.filter_cons_of_neg (by simp [hf]), List.filterMap_cons]
      simp only [readPair, hf]
      exact i
    · rw [List.filter_cons_of_pos (by simp [hf]), List.filterMap_cons, List.map_cons]
      have : readPair f = some (Spec.decode (f.takeWhile (· ≠ '=')), Spec.decode ((f.dropWhile (· ≠ '=')).drop 1)) := by
        unfold readPair
        rw [if_neg h1, if_neg hf, cut_spec]
        dsimp only
        rw [unescape_decode _ h2, unescape_decode _ h3]
      rw [this, i]

/-! ## URLs that get parameters -/

theorem arrives (s : Str) {l : List Pair} (h : AllBytes l) :
    Spec.received { parseUrl s with query := encode l }.text = sort l ∧
    parseQuery (Spec.query { parseUrl s with query := encode l }.text) = sort l := by
  unfold Spec.received
  rw [text_query s _ (encode_no h).1]
  exact ⟨(encode_read h).2, (encode_read h).1⟩

theorem own_params {s : Str} (h : Spec.WellFormed (Spec.query s)) : parseQuery (parseUrl s).query = Spec.received s := by
  rw [← query_parse]
  exact parse_params h

theorem lit_bytes (s : String) (h : s.toList.all (fun c => c.toNat < 256) = true) : Spec.Bytes s.toList := by
  intro c hc
  simpa using List.all_eq_true.1 h c hc

/-- C152. The identity provider finds one SAML request in the URL, and it is that of this login. -/
theorem saml_arrives (pack : Str → Str) (r : AuthnRequest) (hb : Spec.Bytes r.destination)
    (hp : Spec.Bytes (pack (marshal r))) :
    Spec.under "SAMLRequest".toList (Spec.received (samlURL pack r)) = [pack (marshal r)] := by
  have hall := set_bytes (parse_bytes (url_bytes hb)) (lit_bytes "SAMLRequest" (by decide)) hp
  unfold samlURL
  dsimp only
  rw [(arrives r.destination hall).1, under_values, values_sort, values_set_same]

/-- C152 (partial: the query of the configured URL is well-formed). The parameters that the URL of the provider has of
its own are kept. -/
theorem saml_keeps_partial (pack : Str → Str) (r : AuthnRequest) (hb : Spec.Bytes r.destination)
    (hp : Spec.Bytes (pack (marshal r))) (hw : Spec.WellFormed (Spec.query r.destination)) (k : Str)
    (hk : k ≠ "SAMLRequest".toList) :
    Spec.under k (Spec.received (samlURL pack r)) = Spec.under k (Spec.received r.destination) := by
  have hall := set_bytes (parse_bytes (url_bytes hb)) (lit_bytes "SAMLRequest" (by decide)) hp
  unfold samlURL
  dsimp only
  rw [(arrives r.destination hall).1, under_values, values_sort, values_set_other hk, own_params hw, under_values]

/-- C152. Clients of the local server find the code, its scope, and the state they have sent. -/
theorem code_arrives (redirectURI state code scope : Str) (hr : Spec.Bytes redirectURI) (hs : Spec.Bytes state)
    (hc : Spec.Bytes code) (hsc : Spec.Bytes scope) :
    Spec.under "code".toList (Spec.received (codeURL redirectURI state code scope)) = [code] ∧
    Spec.under "state".toList (Spec.received (codeURL redirectURI state code scope)) = [state] ∧
    Spec.under "scope".toList (Spec.received (codeURL redirectURI state code scope)) = [scope] := by
  have hall := set_bytes (set_bytes (set_bytes (parse_bytes (url_bytes hr)) (lit_bytes "state" (by decide)) hs)
    (lit_bytes "code" (by decide)) hc) (lit_bytes "scope" (by decide)) hsc
  unfold codeURL
  dsimp only
  rw [(arrives redirectURI hall).1]
  simp only [under_values, values_sort]
  refine ⟨?_, ?_, ?_⟩
  · rw [values_set_other (by decide), values_set_same]
  · rw [values_set_other (by decide), values_set_other (by decide), values_set_same]
  · rw [values_set_same]

/-- C152 (partial: the query of the registered URI is well-formed). The parameters that the client's URI has of its own
are kept. -/
theorem code_keeps_partial (redirectURI state code scope : Str) (hr : Spec.Bytes redirectURI) (hs : Spec.Bytes state)
    (hc : Spec.Bytes code) (hsc : Spec.Bytes scope) (hw : Spec.WellFormed (Spec.query redirectURI)) (k : Str)
    (h1 : k ≠ "code".toList) (h2 : k ≠ "state".toList) (h3 : k ≠ "scope".toList) :
    Spec.under k (Spec.received (codeURL redirectURI state code scope)) = Spec.under k (Spec.received redirectURI) := by
  have hall := set_bytes (set_bytes (set_bytes (parse_bytes (url_bytes hr)) (lit_bytes "state" (by decide)) hs)
    (lit_bytes "code" (by decide)) hc) (lit_bytes "scope" (by decide)) hsc
  unfold codeURL
  dsimp only
  rw [(arrives redirectURI hall).1]
  simp only [under_values, values_sort]
  rw [values_set_other h3, values_set_other h1, values_set_other h2, own_params hw]

/-- C152, the missing part. A parameter of a client's URI, or of the URL of a provider, whose value contains a semicolon,
is lost. -/
theorem own_violated (base k v : Str) (hb1 : '#' ∉ base) (hb2 : '?' ∉ base) (hv1 : ';' ∈ v) (hv2 : '#' ∉ v) (hv3 : '&' ∉ v)
    (hk1 : '#' ∉ k) (hk2 : '=' ∉ k) (hk3 : '&' ∉ k) (hd : Spec.decode k = k) (hB : Spec.Bytes (base ++ '?' :: (k ++ '=' :: v)))
    (state code scope : Str) (hs : Spec.Bytes state) (hc : Spec.Bytes code) (hsc : Spec.Bytes scope)
    (h1 : k ≠ "code".toList) (h2 : k ≠ "state".toList) (h3 : k ≠ "scope".toList) :
    Spec.under k (Spec.received (base ++ '?' :: (k ++ '=' :: v))) = [Spec.decode v] ∧
    Spec.under k (Spec.received (codeURL (base ++ '?' :: (k ++ '=' :: v)) state code scope)) = [] := by
  have hq : Spec.query (base ++ '?' :: (k ++ '=' :: v)) = k ++ '=' :: v := by
    rw [query_cut, cut_none (s := base ++ '?' :: (k ++ '=' :: v)) (by simp [hb1, hk1, hv2]), cut_of hb2]
  have hf : fields '&' (k ++ '=' :: v) = [k ++ '=' :: v] := fields_none (by simp [hk3, hv3])
  constructor
  · unfold Spec.received
    rw [hq]
    unfold Spec.params
    rw [← fields_split, hf]
    have hcut := cut_of (t := v) hk2
    rw [cut_spec] at hcut
    obtain ⟨c1, c2⟩ := Prod.mk.inj hcut
    rw [List.filter_cons_of_pos (by simp), List.filter_nil, List.map_cons, List.map_nil, c1, c2, hd]
    simp [Spec.under]
  · have hall := set_bytes (set_bytes (set_bytes (parse_bytes (url_bytes hB)) (lit_bytes "state" (by decide)) hs)
      (lit_bytes "code" (by decide)) hc) (lit_bytes "scope" (by decide)) hsc
    unfold codeURL
    dsimp only
    rw [(arrives _ hall).1]
    simp only [under_values, values_sort]
    rw [values_set_other h3, values_set_other h1, values_set_other h2, ← query_parse, hq]
    unfold parseQuery
    rw [hf, List.filterMap_cons, List.filterMap_nil]
    rw [show readPair (k ++ '=' :: v) = none from by rw [readPair, if_pos (by simp [hv1])]]
    rfl

/-! ## The request for a login -/

theorem joinScopes_bytes {l : List Str} (h : ∀ s ∈ l, Spec.Bytes s) : Spec.Bytes (joinScopes l) := by
  induction l with
  | nil => exact fun _ h => (nomatch h)
  | cons s t ih =>
    cases t with
    | nil => exact h s List.mem_cons_self
    | cons s' t =>
      have i := ih fun x hx => h x (List.mem_cons_of_mem _ hx)
      rw [joinScopes]
      · intro c hc
        rcases List.mem_append.1 hc with hc | hc
        · exact h s List.mem_cons_self c hc
        · rcases List.mem_cons.1 hc with rfl | hc
          · decide
          · exact i c hc
      · simp

theorem scope_spec (l : List Str) : scopeText l = Spec.scope l := by
  have h : ∀ l : List Str, joinScopes l = [' '].intercalate l := by
    intro l
    induction l with
    | nil => rfl
    | cons s t ih =>
      cases t with
      | nil => simp [joinScopes, List.intercalate]
      | cons s' t =>
        rw [joinScopes, ih]
        · simp [List.intercalate]
        · simp
  unfold scopeText Spec.scope
  split
  · decide +kernel
  · exact h l

theorem scope_bytes {l : List Str} (h : ∀ s ∈ l, Spec.Bytes s) : Spec.Bytes (scopeText l) := by
  unfold scopeText
  apply joinScopes_bytes
  split
  · intro s hs
    rcases List.mem_cons.1 hs with rfl | hs
    · exact lit_bytes "openid" (by decide)
    · rcases List.mem_cons.1 hs with rfl | hs
      · exact lit_bytes "email" (by decide)
      · cases hs
  · exact h

theorem asked_bytes {l : Login} (h : Spec.Proper l) : AllBytes (Spec.asked l) := by
  obtain ⟨h1, h2, h3, h4, h5, h6, h7⟩ := h
  have b6 := simple_bytes h6
  have b7 := simple_bytes h7
  have b2 := scope_bytes h2
  rw [scope_spec] at b2
  have lit : ∀ s : String, s.toList.all (fun c => c.toNat < 256) = true → Spec.Bytes s.toList := lit_bytes
  intro p hp
  unfold Spec.asked at hp
  rw [List.mem_append, List.mem_append, List.mem_append] at hp
  rcases hp with ((hp | hp) | hp) | hp
  · simp only [List.mem_cons, List.not_mem_nil, or_false] at hp
    rcases hp with rfl | rfl | rfl | rfl | rfl | rfl | rfl | rfl
    · exact ⟨lit _ (by decide), lit _ (by decide)⟩
    · exact ⟨lit _ (by decide), h1⟩
    · exact ⟨lit _ (by decide), b2⟩
    · exact ⟨lit _ (by decide), h3⟩
    · exact ⟨lit _ (by decide), b6⟩
    · exact ⟨lit _ (by decide), b6⟩
    · exact ⟨lit _ (by decide), b7⟩
    · exact ⟨lit _ (by decide), lit _ (by decide)⟩
  · split at hp
    · cases hp
    · obtain rfl := List.mem_singleton.1 hp
      exact ⟨lit _ (by decide), h4⟩
  · split at hp
    · cases hp
    · obtain rfl := List.mem_singleton.1 hp
      exact ⟨lit _ (by decide), h5⟩
  · split at hp
    · obtain rfl := List.mem_singleton.1 hp
      exact ⟨lit _ (by decide), lit _ (by decide)⟩
    · cases hp

/-- Every pair but the first has its separator before it. -/
theorem join_cons (p : Pair) (l : List Pair) :
    join ((p :: l).map pairText) = pairText p ++ l.flatMap (fun q => '&' :: pairText q) := by
  induction l generalizing p with
  | nil => simp [join]
  | cons q l ih =>
    have := ih q
    simp only [List.map_cons] at this ⊢
    rw [join]
    · rw [this, List.flatMap_cons]
      simp
    · simp

theorem lits : "?".toList = ['?'] ∧
    "response_type=code".toList = pairText ("response_type".toList, "code".toList) ∧
    "&client_id=".toList = '&' :: (escape "client_id".toList ++ ['=']) ∧
    "&scope=".toList = '&' :: (escape "scope".toList ++ ['=']) ∧
    "&redirect_uri=".toList = '&' :: (escape "redirect_uri".toList ++ ['=']) ∧
    "&state=".toList = '&' :: (escape "state".toList ++ ['=']) ∧
    "&nonce=".toList = '&' :: (escape "nonce".toList ++ ['=']) ∧
    "&code_challenge=".toList = '&' :: (escape "code_challenge".toList ++ ['=']) ∧
    "&code_challenge_method=S256".toList = '&' :: pairText ("code_challenge_method".toList, "S256".toList) ∧
    "&hd=".toList = '&' :: (escape "hd".toList ++ ['=']) ∧
    "&login_hint=".toList = '&' :: (escape "login_hint".toList ++ ['=']) ∧
    "&prompt=select_account".toList = '&' :: pairText ("prompt".toList, "select_account".toList) := by decide +kernel

theorem piece (k v : Str) (rest : Str) : '&' :: (escape k ++ ['=']) ++ (escape v ++ rest) = ('&' :: pairText (k, v)) ++ rest := by
  simp [pairText]

theorem authURL_text {l : Login} (h : Spec.Proper l) :
    authURL l = l.authEndpoint ++ '?' :: join ((Spec.asked l).map pairText) := by
  obtain ⟨e0, e1, e2, e3, e4, e5, e6, e7, e8, e9, e10, e11⟩ := lits
  have hn := escape_simple h.2.2.2.2.2.1
  have hc := escape_simple h.2.2.2.2.2.2
  have q5 : "&state=".toList ++ l.nonce = '&' :: pairText ("state".toList, l.nonce) := by rw [e5]; simp [pairText, hn]
  have q6 : "&nonce=".toList ++ l.nonce = '&' :: pairText ("nonce".toList, l.nonce) := by rw [e6]; simp [pairText, hn]
  have q7 : "&code_challenge=".toList ++ l.challenge = '&' :: pairText ("code_challenge".toList, l.challenge) := by
    rw [e7]; simp [pairText, hc]
  have q2 : "&client_id=".toList ++ escape l.clientID = '&' :: pairText ("client_id".toList, l.clientID) := by
    rw [e2]; simp [pairText]
  have q3 : "&scope=".toList ++ escape (scopeText l.scopes) = '&' :: pairText ("scope".toList, scopeText l.scopes) := by
    rw [e3]; simp [pairText]
  have q4 : "&redirect_uri=".toList ++ escape l.redirectURL = '&' :: pairText ("redirect_uri".toList, l.redirectURL) := by
    rw [e4]; simp [pairText]
  have q9 : "&hd=".toList ++ escape l.hostedDomain = '&' :: pairText ("hd".toList, l.hostedDomain) := by
    rw [e9]; simp [pairText]
  have q10 : "&login_hint=".toList ++ escape l.hint = '&' :: pairText ("login_hint".toList, l.hint) := by
    rw [e10]; simp [pairText]
  have o1 : (if l.hostedDomain ≠ [] then "&hd=".toList ++ escape l.hostedDomain else []) =
      (if l.hostedDomain = [] then [] else [("hd".toList, l.hostedDomain)]).flatMap (fun q => '&' :: pairText q) := by
    by_cases hh : l.hostedDomain = []
    · simp [hh]
    · rw [if_pos hh, if_neg hh, q9]; simp
  have o2 : (if l.hint ≠ [] then "&login_hint=".toList ++ escape l.hint else []) =
      (if l.hint = [] then [] else [("login_hint".toList, l.hint)]).flatMap (fun q => '&' :: pairText q) := by
    by_cases hh : l.hint = []
    · simp [hh]
    · rw [if_pos hh, if_neg hh, q10]; simp
  have o3 : (if l.selectAccount then "&prompt=select_account".toList else []) =
      (if l.selectAccount then [("prompt".toList, "select_account".toList)] else []).flatMap
        (fun q => '&' :: pairText q) := by
    cases l.selectAccount
    · rfl
    · rw [if_pos rfl, if_pos rfl, e11]; simp
  unfold authURL Spec.asked
  rw [← scope_spec, o1, o2, o3]
  generalize (if l.hostedDomain = [] then [] else [("hd".toList, l.hostedDomain)]) = t1
  generalize (if l.hint = [] then [] else [("login_hint".toList, l.hint)]) = t2
  generalize (if l.selectAccount = true then [("prompt".toList, "select_account".toList)] else []) = t3
  simp only [List.cons_append, List.nil_append]
  rw [join_cons]
  simp only [List.flatMap_cons, List.flatMap_append, List.append_assoc]
  rw [← List.append_assoc "&client_id=".toList, q2, ← List.append_assoc "&scope=".toList, q3,
    ← List.append_assoc "&redirect_uri=".toList, q4, ← List.append_assoc "&state=".toList, q5,
    ← List.append_assoc "&nonce=".toList, q6, ← List.append_assoc "&code_challenge=".toList, q7, e8, e1, e0]
  simp only [List.cons_append, List.nil_append, List.append_assoc]

theorem asked_no {l : Login} (h : Spec.Proper l) (x : Char) (hx : x = '#' ∨ x = '?') :
    x ∉ join ((Spec.asked l).map pairText) := by
  have hb := asked_bytes h
  apply join_no hb x
  · rcases hx with rfl | rfl <;> decide
  · intro p hp
    have := pair_fields (hb p hp).1 (hb p hp).2
    rcases hx with rfl | rfl
    · exact this.2.2.2.1
    · exact this.2.2.2.2

/-- C152 (partial: the endpoint has neither a query nor a fragment). The identity provider finds in the URL what it should
be asked, and nothing else, whatever characters there are in it. -/
theorem login_arrives_partial (l : Login) (h : Spec.Proper l) (h1 : '?' ∉ l.authEndpoint) (h2 : '#' ∉ l.authEndpoint) :
    Spec.received (authURL l) = Spec.asked l ∧ parseQuery (Spec.query (authURL l)) = Spec.asked l := by
  have hq : Spec.query (authURL l) = join ((Spec.asked l).map pairText) := by
    rw [authURL_text h, query_cut, cut_none (s := _ ++ _), cut_of h1]
    rw [List.mem_append, List.mem_cons, not_or, not_or]
    exact ⟨h2, by decide, asked_no h _ (.inl rfl)⟩
  unfold Spec.received
  rw [hq]
  exact ⟨(join_read (asked_bytes h)).2, (join_read (asked_bytes h)).1⟩

theorem under_same (k v : Str) (l : List (Str × Str)) : Spec.under k ((k, v) :: l) = v :: Spec.under k l := by
  simp [Spec.under]

theorem under_other {k k' : Str} (h : k' ≠ k) (v : Str) (l : List (Str × Str)) :
    Spec.under k ((k', v) :: l) = Spec.under k l := by
  simp [Spec.under, h]

/-- C152, the missing part. If the endpoint has a query, as RFC 6749 allows, the provider is not told what kind of
response is wanted; its last own parameter has this at its end instead. -/
theorem login_query_violated (l : Login) (h : Spec.Proper l) (base k v : Str) (h1 : '?' ∉ base) (h2 : '#' ∉ base)
    (hk : Spec.Bytes k) (hv : Spec.Bytes v) (he : l.authEndpoint = base ++ '?' :: pairText (k, v))
    (hne : k ≠ "response_type".toList) :
    Spec.under k (Spec.received (authURL l)) = (v ++ "?response_type=code".toList) :: Spec.under k (Spec.asked l) ∧
    Spec.under "response_type".toList (Spec.received (authURL l)) = [] := by
  have hB := asked_bytes h
  obtain ⟨t, ht⟩ : ∃ t, Spec.asked l = ("response_type".toList, "code".toList) :: t := ⟨_, rfl⟩
  have hrest : ∀ p ∈ t, p.1 ≠ "response_type".toList := by
    have : t = (Spec.asked l).tail := by rw [ht]; rfl
    rw [this]
    unfold Spec.asked
    intro p hp
    simp only [List.cons_append, List.tail_cons, List.nil_append, List.mem_cons, List.mem_append] at hp
    rcases hp with rfl | rfl | rfl | rfl | rfl | rfl | rfl | (hp | hp) | hp
    · dsimp only; decide
    · dsimp only; decide
    · dsimp only; decide
    · dsimp only; decide
    · dsimp only; decide
    · dsimp only; decide
    · dsimp only; decide
    · split at hp
      · cases hp
      · obtain rfl := List.mem_singleton.1 hp; dsimp only; decide
    · split at hp
      · cases hp
      · obtain rfl := List.mem_singleton.1 hp; dsimp only; decide
    · split at hp
      · obtain rfl := List.mem_singleton.1 hp; decide
      · cases hp
  have hpf := pair_fields (p := (k, v)) hk hv
  have hbt : AllBytes t := fun p hp => hB p (by rw [ht]; exact List.mem_cons_of_mem _ hp)
  have hq : Spec.query (authURL l) =
      pairText (k, v) ++ '?' :: join ((("response_type".toList, "code".toList) :: t).map pairText) := by
    rw [authURL_text h, he, query_cut, cut_none (s := _ ++ _), List.append_assoc, List.cons_append, cut_of h1, ht]
    rw [List.mem_append, List.mem_cons, List.mem_append, List.mem_cons, not_or, not_or, not_or, not_or]
    exact ⟨⟨h2, by decide, hpf.2.2.2.1⟩, by decide, asked_no h _ (.inl rfl)⟩
  have hlast : pairText (k, v) ++ '?' :: pairText ("response_type".toList, "code".toList) =
      escape k ++ '=' :: (escape v ++ "?response_type=code".toList) := by
    have : '?' :: pairText ("response_type".toList, "code".toList) = "?response_type=code".toList := by decide +kernel
    rw [this]
    simp [pairText]
  have hnoamp : '&' ∉ escape k ++ '=' :: (escape v ++ "?response_type=code".toList) := by
    rw [← hlast, List.mem_append, List.mem_cons, not_or, not_or]
    exact ⟨hpf.1, by decide, by decide +kernel⟩
  have hdec : Spec.decode (escape v ++ "?response_type=code".toList) = v ++ "?response_type=code".toList := by
    have aux : ∀ s : Str, Spec.Bytes s → ∀ t, Spec.decode (escape s ++ t) = s ++ Spec.decode t := by
      intro s hs t
      induction s with
      | nil => rfl
      | cons c s ih =>
        have e : escape (c :: s) = escapeChar c ++ escape s := List.flatMap_cons
        rw [e, List.append_assoc, (escapeChar_read (hs c List.mem_cons_self) _).2,
          ih fun x hx => hs x (List.mem_cons_of_mem _ hx)]
        rfl
    rw [aux v hv]
    congr 1
  have hparams : Spec.received (authURL l) = (k, v ++ "?response_type=code".toList) :: t := by
    unfold Spec.received
    rw [hq, join_cons, ← List.cons_append, ← List.append_assoc, hlast]
    unfold Spec.params
    rw [← fields_split]
    have hcut := cut_of (t := escape v ++ "?response_type=code".toList) hpf.2.1
    rw [cut_spec] at hcut
    obtain ⟨c1, c2⟩ := Prod.mk.inj hcut
    have hmap : ∀ t : List Pair, AllBytes t → ((t.map pairText).filter (· ≠ [])).map
        (fun f => (Spec.decode (f.takeWhile (· ≠ '=')), Spec.decode ((f.dropWhile (· ≠ '=')).drop 1))) = t := by
      intro t hbt
      induction t with
      | nil => rfl
      | cons p t ih =>
        obtain ⟨p1, p2⟩ := hbt p List.mem_cons_self
        have hcut := cut_of (t := escape p.2) (pair_fields p1 p2).2.1
        rw [cut_spec] at hcut
        obtain ⟨d1, d2⟩ := Prod.mk.inj hcut
        rw [List.map_cons, List.filter_cons_of_pos (by simp [pairText]), List.map_cons,
          ih fun x hx => hbt x (List.mem_cons_of_mem _ hx)]
        rw [pairText, d1, d2, (escape_read p1).2, (escape_read p2).2]
    have hf : fields '&' (escape k ++ '=' :: (escape v ++ "?response_type=code".toList) ++
        t.flatMap (fun q => '&' :: pairText q)) =
        (escape k ++ '=' :: (escape v ++ "?response_type=code".toList)) :: t.map pairText := by
      generalize escape k ++ '=' :: (escape v ++ "?response_type=code".toList) = w at hnoamp
      cases t with
      | nil => rw [List.flatMap_nil, List.append_nil, fields_none hnoamp]; rfl
      | cons p t =>
        rw [List.flatMap_cons, List.cons_append, fields_of hnoamp, ← join_cons, fields_join hbt (by simp)]
    rw [hf, List.filter_cons_of_pos (by simp), List.map_cons, hmap t hbt, c1, c2, hdec, (escape_read hk).2]
  rw [hparams, ht]
  constructor
  · have hk' : ¬ "response_type".toList = k := fun e => hne e.symm
    rw [under_same, under_other hk']
  · rw [under_other hne, Spec.under, List.filterMap_eq_nil_iff]
    intro p hp
    rw [if_neg (hrest p hp)]

/-- C152, the missing part. If the endpoint has a fragment, the provider is told nothing. -/
theorem login_fragment_violated (l : Login) (base frag : Str) (h1 : '?' ∉ base) (h2 : '#' ∉ base)
    (he : l.authEndpoint = base ++ '#' :: frag) : Spec.received (authURL l) = [] := by
  have : Spec.query (authURL l) = [] := by
    unfold authURL
    simp only [he, List.append_assoc, List.cons_append]
    rw [query_cut, cut_of h2, cut_none h1]
  unfold Spec.received
  rw [this]
  rfl

theorem get_same (k v : Str) (l : List Pair) : get k ((k, v) :: l) = v := by
  unfold get values
  rw [List.filter_cons_of_pos (by simp)]
  rfl

theorem get_other {k k' : Str} (h : k' ≠ k) (v : Str) (l : List Pair) : get k ((k', v) :: l) = get k l := by
  unfold get values
  rw [List.filter_cons_of_neg (by simp [h])]

/-- C152. From the proxy as a client to the proxy as a server and back: the local server takes the client, its URI and its
state for what they are, and the client finds its state and the code in the callback. -/
theorem round_trip (l : Login) (h : Spec.Proper l) (h1 : '?' ∉ l.authEndpoint) (h2 : '#' ∉ l.authEndpoint)
    (clients : List (Str × List Str)) (uris : List Str) (hc : (l.clientID, uris) ∈ clients) (hu : l.redirectURL ∈ uris)
    (code scope : Str) (hcode : Spec.Bytes code) (hscope : Spec.Bytes scope) :
    authorize clients (parseQuery (Spec.query (authURL l))) = some (l.clientID, l.redirectURL, l.nonce) ∧
    get "state".toList (parseQuery (Spec.query (codeURL l.redirectURL l.nonce code scope))) = l.nonce ∧
    get "code".toList (parseQuery (Spec.query (codeURL l.redirectURL l.nonce code scope))) = code := by
  constructor
  · rw [(login_arrives_partial l h h1 h2).2]
    have g1 : get "response_type".toList (Spec.asked l) = "code".toList := by
      unfold Spec.asked
      simp only [List.cons_append, List.nil_append]
      rw [get_same]
    have g2 : get "client_id".toList (Spec.asked l) = l.clientID := by
      unfold Spec.asked
      simp only [List.cons_append, List.nil_append]
      rw [get_other (by decide), get_same]
    have g3 : get "redirect_uri".toList (Spec.asked l) = l.redirectURL := by
      unfold Spec.asked
      simp only [List.cons_append, List.nil_append]
      rw [get_other (by decide), get_other (by decide), get_other (by decide), get_same]
    have g4 : get "state".toList (Spec.asked l) = l.nonce := by
      unfold Spec.asked
      simp only [List.cons_append, List.nil_append]
      rw [get_other (by decide), get_other (by decide), get_other (by decide), get_other (by decide), get_same]
    unfold authorize
    rw [g1, if_neg (by simp), g2, g3, g4, if_pos]
    rw [List.any_eq_true]
    exact ⟨_, hc, by simp [hu]⟩
  · have hall := set_bytes (set_bytes (set_bytes (parse_bytes (url_bytes h.2.2.1)) (lit_bytes "state" (by decide))
      (simple_bytes h.2.2.2.2.2.1)) (lit_bytes "code" (by decide)) hcode) (lit_bytes "scope" (by decide)) hscope
    unfold codeURL
    dsimp only
    rw [(arrives l.redirectURL hall).2]
    unfold get
    rw [values_sort, values_sort, values_set_other (by decide), values_set_other (by decide), values_set_same,
      values_set_other (by decide), values_set_same]
    exact ⟨rfl, rfl⟩

/-- C152. The local server goes on only with a client it knows and a URI that is registered for this client. -/
theorem authorize_known (clients : List (Str × List Str)) (form : List Pair) (c u s : Str)
    (h : authorize clients form = some (c, u, s)) :
    (∃ uris, (c, uris) ∈ clients ∧ u ∈ uris) ∧ get "response_type".toList form = "code".toList := by
  unfold authorize at h
  split at h
  · cases h
  · rename_i hr
    split at h
    · rename_i ha
      cases h
      obtain ⟨x, hx, hp⟩ := List.any_eq_true.1 ha
      simp only [Bool.and_eq_true, decide_eq_true_eq, List.contains_eq_mem] at hp
      exact ⟨⟨x.2, hp.1 ▸ hx, hp.2⟩, Classical.not_not.1 hr⟩
    · cases h

/-- C152. The provider's token endpoint finds in the form the code, the credentials and the verifier. -/
theorem token_request (code clientID secret redirectURL verifier : Str) (h1 : Spec.Bytes code) (h2 : Spec.Bytes clientID)
    (h3 : Spec.Bytes secret) (h4 : Spec.Bytes redirectURL) (h5 : Spec.Bytes verifier) (k v : Str) :
    (k, v) ∈ Spec.params (tokenForm code clientID secret redirectURL verifier) ↔
      (k, v) ∈ [("code".toList, code), ("client_id".toList, clientID), ("client_secret".toList, secret),
        ("redirect_uri".toList, redirectURL), ("grant_type".toList, "authorization_code".toList),
        ("code_verifier".toList, verifier)] := by
  unfold tokenForm
  rw [(encode_read _).2, sort_mem]
  intro p hp
  simp only [List.mem_cons, List.not_mem_nil, or_false] at hp
  rcases hp with rfl | rfl | rfl | rfl | rfl | rfl
  · exact ⟨lit_bytes _ (by decide), h1⟩
  · exact ⟨lit_bytes _ (by decide), h2⟩
  · exact ⟨lit_bytes _ (by decide), h3⟩
  · exact ⟨lit_bytes _ (by decide), h4⟩
  · exact ⟨lit_bytes _ (by decide), lit_bytes _ (by decide)⟩
  · exact ⟨lit_bytes _ (by decide), h5⟩

/-! ## Passkeys -/

/-- C152. The passkey endpoint finds the number of the login; on the page itself there is the token instead of it, and the
rest of the query as it was; and when the identity has to be confirmed, the address and the token. -/
theorem passkey_arrives (endpoint nonce token email query : Str) (he : Spec.Bytes endpoint) (hn : Spec.Bytes nonce)
    (ht : Spec.Bytes token) (hm : Spec.Bytes email) (hq : Spec.Bytes query) :
    get "nonce".toList (parseQuery (Spec.query (passkeyURL endpoint nonce))) = nonce ∧
    get "get".toList (parseQuery (Spec.query (passkeyURL endpoint nonce))) = "Login".toList ∧
    values "redirect".toList (parseQuery (passkeyPage query token)) = [token] ∧
    values "nonce".toList (parseQuery (passkeyPage query token)) = [] ∧
    (∀ k, k ≠ "redirect".toList → k ≠ "nonce".toList →
      values k (parseQuery (passkeyPage query token)) = values k (parseQuery query)) ∧
    values "email".toList (parseQuery (refreshPage query email)) = [email] ∧
    values "get".toList (parseQuery (refreshPage query email)) = ["RefreshID".toList] ∧
    (∀ k, k ≠ "email".toList → k ≠ "get".toList →
      values k (parseQuery (refreshPage query email)) = values k (parseQuery query)) := by
  have b1 := set_bytes (set_bytes (parse_bytes (url_bytes he)) (lit_bytes "get" (by decide)) (lit_bytes "Login" (by decide)))
    (lit_bytes "nonce" (by decide)) hn
  have b2 := set_bytes (del_bytes (parse_bytes hq) "nonce".toList) (lit_bytes "redirect" (by decide)) ht
  have b3 := set_bytes (set_bytes (parse_bytes hq) (lit_bytes "get" (by decide)) (lit_bytes "RefreshID" (by decide)))
    (lit_bytes "email" (by decide)) hm
  unfold passkeyURL passkeyPage refreshPage
  dsimp only
  rw [(arrives endpoint b1).2, (encode_read b2).1, (encode_read b3).1]
  unfold get
  simp only [values_sort]
  refine ⟨?_, ?_, ?_, ?_, ?_, ?_, ?_, ?_⟩
  · rw [values_set_same]; rfl
  · rw [values_set_other (by decide), values_set_same]; rfl
  · rw [values_set_same]
  · rw [values_set_other (by decide), values_del_same]
  · intro k h1 h2
    rw [values_set_other h1, values_del_other h2]
  · rw [values_set_same]
  · rw [values_set_other (by decide), values_set_same]
  · intro k h1 h2
    rw [values_set_other h1, values_set_other h2]

/-! ## The SAML document -/

theorem xmlAllowed_iff (c : Char) : xmlAllowed c = true ↔ Spec.XmlChar c := by
  have key : ∀ x : Char, c = x ↔ c.toNat = x.toNat := fun x =>
    ⟨fun h => h ▸ rfl, fun h => by rw [← Char.ofNat_toNat c, h, Char.ofNat_toNat]⟩
  unfold xmlAllowed Spec.XmlChar
  simp only [Bool.or_eq_true, beq_iff_eq, Bool.and_eq_true, decide_eq_true_eq, key]
  rw [show '\t'.toNat = 9 from rfl, show '\n'.toNat = 10 from rfl, show '\r'.toNat = 13 from rfl]
  constructor
  · rintro (((((h | h) | h) | h) | h) | h)
    · exact .inl h
    · exact .inr (.inl h)
    · exact .inr (.inr (.inl h))
    · exact .inr (.inr (.inr (.inl h)))
    · exact .inr (.inr (.inr (.inr (.inl h))))
    · exact .inr (.inr (.inr (.inr (.inr h))))
  · rintro (h | h | h | h | h | h)
    · exact .inl (.inl (.inl (.inl (.inl h))))
    · exact .inl (.inl (.inl (.inl (.inr h))))
    · exact .inl (.inl (.inl (.inr h)))
    · exact .inl (.inl (.inr h))
    · exact .inl (.inr h)
    · exact .inr h

theorem xmlChar_read {c : Char} (h : xmlAllowed c = true) (t : Str) :
    Spec.text none (xmlChar c ++ t) = (Spec.text none t).map (c :: ·) := by
  unfold xmlChar
  split
  · rename_i e; subst e; rfl
  · split
    · rename_i e; subst e; rfl
    · split
      · rename_i e; subst e; rfl
      · split
        · rename_i e; subst e; rfl
        · split
          · rename_i e; subst e; rfl
          · split
            · rename_i e; subst e; rfl
            · split
              · rename_i e; subst e; rfl
              · split
                · rename_i e; subst e; rfl
                · rename_i h1 h2 h3 h4 h5 h6 h7 h8
                  rw [List.cons_append, List.nil_append, Spec.text, if_neg h3, if_neg h4]

theorem xmlText_read {s : Str} (h : Spec.Xml s) : Spec.text none (xmlText s) = some s := by
  induction s with
  | nil => rfl
  | cons c s ih =>
    have e : xmlText (c :: s) = xmlChar c ++ xmlText s := List.flatMap_cons
    rw [e, xmlChar_read ((xmlAllowed_iff c).2 (h c List.mem_cons_self)), ih fun x hx => h x (List.mem_cons_of_mem _ hx)]
    rfl

/-- C152. Any text is read from the document as it is, except that a replacement character stands in for each
character that XML cannot express. -/
theorem saml_text (s : Str) :
    Spec.text none (xmlText s) = some (s.map fun c => if Spec.XmlChar c then c else Char.ofNat 0xFFFD) := by
  induction s with
  | nil => rfl
  | cons c s ih =>
    have e : xmlText (c :: s) = xmlChar c ++ xmlText s := List.flatMap_cons
    rw [e]
    by_cases hc : Spec.XmlChar c
    · rw [xmlChar_read ((xmlAllowed_iff c).2 hc), ih, List.map_cons, if_pos hc]
      rfl
    · have hx : xmlChar c = [Char.ofNat 0xFFFD] := by
        have key : ∀ x, Spec.XmlChar x → c ≠ x := fun x hx he => hc (he ▸ hx)
        unfold xmlChar
        rw [if_neg (key _ (by decide)), if_neg (key _ (by decide)), if_neg (key _ (by decide)), if_neg (key _ (by decide)),
          if_neg (key _ (by decide)), if_neg (key _ (by decide)), if_neg (key _ (by decide)), if_neg (key _ (by decide)),
          if_neg (by rw [xmlAllowed_iff]; exact hc)]
      rw [hx, List.cons_append, List.nil_append, Spec.text, if_neg (by decide), if_neg (by decide), ih, List.map_cons,
        if_neg hc]
      rfl

theorem xmlText_no {s : Str} (h : Spec.Xml s) : '"' ∉ xmlText s ∧ '<' ∉ xmlText s := by
  have key : ∀ c, xmlAllowed c = true → '"' ∉ xmlChar c ∧ '<' ∉ xmlChar c := by
    intro c hc
    unfold xmlChar
    repeat' split
    all_goals first
      | decide
      | exact ⟨fun hm => absurd (List.mem_singleton.1 hm).symm (by assumption),
          fun hm => absurd (List.mem_singleton.1 hm).symm (by assumption)⟩
  constructor
  · intro hm
    obtain ⟨c, hc, hx⟩ := List.mem_flatMap.1 hm
    exact (key c ((xmlAllowed_iff c).2 (h c hc))).1 hx
  · intro hm
    obtain ⟨c, hc, hx⟩ := List.mem_flatMap.1 hm
    exact (key c ((xmlAllowed_iff c).2 (h c hc))).2 hx

theorem attributes_read {l : List Pair} (hn : ∀ a ∈ l, '=' ∉ a.1) (hv : ∀ a ∈ l, Spec.Xml a.2) (rest : Str) (n : Nat)
    (hlen : l.length < n) : Spec.attributes n (l.flatMap attrText ++ '>' :: rest) = some (l, rest) := by
  induction l generalizing n with
  | nil =>
    cases n with
    | zero => simp at hlen
    | succ n => rfl
  | cons a l ih =>
    cases n with
    | zero => simp at hlen
    | succ n =>
      have i := ih (fun x hx => hn x (List.mem_cons_of_mem _ hx)) (fun x hx => hv x (List.mem_cons_of_mem _ hx)) n
        (by simpa using hlen)
      have h1 := cut_of (t := '"' :: (xmlText a.2 ++ '"' :: (l.flatMap attrText ++ '>' :: rest))) (hn a List.mem_cons_self)
      have h2 := cut_of (t := l.flatMap attrText ++ '>' :: rest) (xmlText_no (hv a List.mem_cons_self)).1
      rw [cut_spec] at h1 h2
      obtain ⟨a1, a2⟩ := Prod.mk.inj h1
      obtain ⟨b1, b2⟩ := Prod.mk.inj h2
      rw [List.flatMap_cons, attrText]
      simp only [List.cons_append, List.append_assoc, List.nil_append]
      rw [Spec.attributes, a2]
      simp only []
      rw [b1, b2, i, xmlText_read (hv a List.mem_cons_self), a1]

theorem startTag_read {name : Str} {l : List Pair} (hn : ∀ a ∈ l, '=' ∉ a.1) (hv : ∀ a ∈ l, Spec.Xml a.2) (rest : Str) :
    Spec.startTag name (tagText name l ++ rest) = some (l, rest) := by
  have hlen : ∀ l : List Pair, l.length ≤ (l.flatMap attrText).length := by
    intro l
    induction l with
    | nil => simp
    | cons a l ih =>
      rw [List.flatMap_cons, List.length_append, List.length_cons]
      have : 1 ≤ (attrText a).length := by simp [attrText]
      omega
  unfold tagText
  simp only [List.cons_append, List.append_assoc, List.nil_append]
  rw [Spec.startTag, if_pos (by simp), List.drop_left, attributes_read hn hv]
  have := hlen l
  simp only [List.length_append, List.length_cons]
  omega

theorem xml_of {s : Str} (h : s.all xmlAllowed = true) : Spec.Xml s :=
  fun c hc => (xmlAllowed_iff c).1 (List.all_eq_true.1 h c hc)

/-- C152. The document in the request says what it should: who asks, for which login, and where to send the answer,
whatever characters there are in it. -/
theorem saml_document (r : AuthnRequest) (h1 : Spec.Xml r.id) (h2 : Spec.Xml r.issueInstant) (h3 : Spec.Xml r.destination)
    (h4 : Spec.Xml r.acsURL) (h5 : Spec.Xml r.entityID) : Spec.request (marshal r) = some r := by
  have lit : ∀ s : String, s.toList.all xmlAllowed = true → Spec.Xml s.toList :=
    fun s h c hc => (xmlAllowed_iff c).1 (List.all_eq_true.1 h c hc)
  unfold marshal Spec.request
  rw [startTag_read (name := "AuthnRequest".toList)]
  · dsimp only
    rw [startTag_read (name := "Issuer".toList)]
    · dsimp only
      have hend : endText "Issuer".toList ++ endText "AuthnRequest".toList =
          '<' :: "/Issuer></AuthnRequest>".toList := by decide +kernel
      rw [hend]
      have hcut : (xmlText r.entityID ++ '<' :: "/Issuer></AuthnRequest>".toList).takeWhile (· ≠ '<') = xmlText r.entityID ∧
          (xmlText r.entityID ++ '<' :: "/Issuer></AuthnRequest>".toList).dropWhile (· ≠ '<') =
            '<' :: "/Issuer></AuthnRequest>".toList := by
        have hno := (xmlText_no h5).2
        have hp : ∀ c ∈ xmlText r.entityID, decide (c ≠ '<') = true := by
          intro c hc
          simp only [ne_eq, decide_eq_true_eq]
          rintro rfl
          exact hno hc
        constructor
        · rw [List.takeWhile_append_of_pos hp]; simp
        · rw [List.dropWhile_append_of_pos hp]; simp
      rw [hcut.1, hcut.2, xmlText_read h5]
      dsimp only
      rw [if_pos (by
        refine ⟨by decide +kernel, ?_, ?_, ?_, ?_⟩ <;> simp [List.lookup])]
      simp [List.lookup]
    · decide +kernel
    · intro a ha
      simp only [List.mem_cons, List.not_mem_nil, or_false] at ha
      rcases ha with rfl | rfl
      · exact lit _ (by decide +kernel)
      · exact lit _ (by decide +kernel)
  · intro a ha
    simp only [List.mem_cons, List.not_mem_nil, or_false] at ha
    rcases ha with rfl | rfl | rfl | rfl | rfl | rfl | rfl <;> (dsimp only; decide +kernel)
  · intro a ha
    simp only [List.mem_cons, List.not_mem_nil, or_false] at ha
    rcases ha with rfl | rfl | rfl | rfl | rfl | rfl | rfl
    · exact lit _ (by decide +kernel)
    · exact h1
    · exact lit _ (by decide +kernel)
    · exact h2
    · exact h3
    · exact lit _ (by decide +kernel)
    · exact h4

/-! ## Examples -/

namespace Ex

/-- Names with the characters that matter: blanks, ampersands, equal signs, plus signs, question marks, bytes of UTF-8. -/
def login : Login where
  authEndpoint := "https://idp.example/auth".toList
  clientID := "a&client_id=b c+d%41".toList
  scopes := []
  redirectURL := "https://www.example/cb?x=1&y=2#f".toList
  nonce := "0a1b2c".toList
  challenge := "Zm9-_A".toList
  hostedDomain := [Char.ofNat 0xC3, Char.ofNat 0xA9]
  hint := "joe+test@example.com".toList
  selectAccount := true

theorem bytes_of {s : Str} (h : s.all (fun c => c.toNat < 256) = true) : Spec.Bytes s := by
  intro c hc
  simpa using List.all_eq_true.1 h c hc

theorem simple_of {s : Str} (h : s.all (fun c => c.isAlphanum || c == '-' || c == '_') = true) : Spec.Simple s := by
  intro c hc
  have := List.all_eq_true.1 h c hc
  simpa [or_assoc] using this

theorem proper : Spec.Proper login :=
  ⟨bytes_of (by decide +kernel), fun _ h => (nomatch h), bytes_of (by decide +kernel), bytes_of (by decide +kernel),
    bytes_of (by decide +kernel), simple_of (by decide +kernel), simple_of (by decide +kernel)⟩

example : Spec.received (authURL login) = Spec.asked login :=
  (login_arrives_partial login proper (by decide +kernel) (by decide +kernel)).1

example : authURL login = ("https://idp.example/auth?response_type=code&client_id=a%26client_id%3Db+c%2Bd%2541" ++
    "&scope=openid+email&redirect_uri=https%3A%2F%2Fwww.example%2Fcb%3Fx%3D1%26y%3D2%23f&state=0a1b2c&nonce=0a1b2c" ++
    "&code_challenge=Zm9-_A&code_challenge_method=S256&hd=%C3%A9&login_hint=joe%2Btest%40example.com" ++
    "&prompt=select_account").toList := by decide +kernel

/-- An endpoint with a query of its own. -/
def tenant : Login := { login with authEndpoint := "https://idp.example/auth?tenant=7".toList }

example : Spec.under "response_type".toList (Spec.received (authURL tenant)) = [] :=
  (login_query_violated tenant proper "https://idp.example/auth".toList "tenant".toList "7".toList
    (by decide +kernel) (by decide +kernel) (bytes_of (by decide +kernel)) (bytes_of (by decide +kernel))
    (by decide +kernel) (by decide +kernel)).2

example : Spec.under "tenant".toList (Spec.received (authURL tenant)) = ["7?response_type=code".toList] := by
  decide +kernel

/-- An endpoint with a fragment. -/
example : Spec.received (authURL { login with authEndpoint := "https://idp.example/#/auth".toList }) = [] :=
  login_fragment_violated _ "https://idp.example/".toList "/auth".toList (by decide +kernel) (by decide +kernel)
    (by decide +kernel)

example : authorize [("a&client_id=b c+d%41".toList, ["https://www.example/cb?x=1&y=2#f".toList])]
    (parseQuery (Spec.query (authURL login))) = some (login.clientID, login.redirectURL, login.nonce) :=
  (round_trip login proper (by decide +kernel) (by decide +kernel) _ _ List.mem_cons_self List.mem_cons_self
    "c&d".toList "openid".toList (bytes_of (by decide +kernel)) (bytes_of (by decide +kernel))).1

example : codeURL login.redirectURL "s t".toList "c&d".toList "openid".toList =
    "https://www.example/cb?code=c%26d&scope=openid&state=s+t&x=1&y=2#f".toList := by decide +kernel

example : Spec.under "code".toList (Spec.received (codeURL login.redirectURL "s t".toList "c&d".toList "openid".toList)) =
    ["c&d".toList] :=
  (code_arrives _ _ _ _ (bytes_of (by decide +kernel)) (bytes_of (by decide +kernel)) (bytes_of (by decide +kernel))
    (bytes_of (by decide +kernel))).1

/-- The client's own parameter `v=1;2` does not come back. -/
example : Spec.under "v".toList (Spec.received "https://www.example/cb?v=1;2".toList) = ["1;2".toList] ∧
    Spec.under "v".toList (Spec.received (codeURL "https://www.example/cb?v=1;2".toList "s".toList "c".toList "o".toList)) = [] :=
  own_violated "https://www.example/cb".toList "v".toList "1;2".toList (by decide +kernel) (by decide +kernel)
    (by decide +kernel) (by decide +kernel) (by decide +kernel) (by decide +kernel) (by decide +kernel)
    (by decide +kernel) (by decide +kernel) (bytes_of (by decide +kernel)) _ _ _ (bytes_of (by decide +kernel))
    (bytes_of (by decide +kernel)) (bytes_of (by decide +kernel)) (by decide +kernel) (by decide +kernel)
    (by decide +kernel)

def req : AuthnRequest where
  id := "id-0a1b".toList
  issueInstant := "2026-01-02T03:04:05Z".toList
  destination := "https://idp.example/sso?idpid=C0&x=%20".toList
  acsURL := "https://www.example/acs?a=1&b=\"2\"".toList
  entityID := "https://www.example/<me>&'you'\n".toList

example : Spec.request (marshal req) = some req :=
  saml_document req (xml_of (by decide +kernel)) (xml_of (by decide +kernel))
    (xml_of (by decide +kernel)) (xml_of (by decide +kernel))
    (xml_of (by decide +kernel))

/-- A bell and a number sign. -/
example : Spec.text none (xmlText ['a', Char.ofNat 7, '<', '#']) = some ['a', Char.ofNat 0xFFFD, '<', '#'] := by
  rw [saml_text]
  decide +kernel

example : samlURL (fun _ => "fZ+/=".toList) req =
    "https://idp.example/sso?SAMLRequest=fZ%2B%2F%3D&idpid=C0&x=+".toList := by decide +kernel

example : Spec.under "SAMLRequest".toList (Spec.received (samlURL (fun _ => "fZ+/=".toList) req)) = ["fZ+/=".toList] :=
  saml_arrives _ req (bytes_of (by decide +kernel)) (bytes_of (by decide +kernel))

theorem plain_query {q : Str} (h1 : ';' ∉ q) (h2 : '%' ∉ q) (hs : Spec.split q = [q]) : Spec.WellFormed q := by
  have hno : ∀ s : Str, '%' ∉ s → Spec.Escapes s := fun s h a b e => absurd (e ▸ by simp) h
  intro f hf
  rw [hs] at hf
  obtain rfl := List.mem_singleton.1 hf
  exact ⟨h1, hno _ fun h => h2 ((List.takeWhile_sublist _).subset h),
    hno _ fun h => h2 ((List.dropWhile_sublist _).subset (List.mem_of_mem_drop h))⟩

/-- A provider that is named in the URL stays named in it. -/
example : Spec.under "idpid".toList (Spec.received (samlURL (fun _ => "fZ+/=".toList)
    { req with destination := "https://idp.example/sso?idpid=C0".toList })) = ["C0".toList] := by
  rw [saml_keeps_partial _ _ (bytes_of (by decide +kernel)) (bytes_of (by decide +kernel))
    (plain_query (by decide +kernel) (by decide +kernel) (by decide +kernel)) _ (by decide +kernel)]
  decide +kernel

example : Spec.under "x".toList (Spec.received (codeURL "https://www.example/cb?x=1".toList "s".toList "c".toList
    "o".toList)) = ["1".toList] := by
  rw [code_keeps_partial _ _ _ _ (bytes_of (by decide +kernel)) (bytes_of (by decide +kernel)) (bytes_of (by decide +kernel))
    (bytes_of (by decide +kernel)) (plain_query (by decide +kernel) (by decide +kernel) (by decide +kernel)) _
    (by decide +kernel) (by decide +kernel) (by decide +kernel)]
  decide +kernel

example : (("client_secret".toList, "p&q=r".toList) : Str × Str) ∈
    Spec.params (tokenForm "c".toList "i".toList "p&q=r".toList "u".toList "v".toList) :=
  (token_request _ _ _ _ _ (bytes_of (by decide +kernel)) (bytes_of (by decide +kernel)) (bytes_of (by decide +kernel))
    (bytes_of (by decide +kernel)) (bytes_of (by decide +kernel)) _ _).2 (by decide +kernel)

example : get "nonce".toList (parseQuery (Spec.query (passkeyURL "https://www.example/passkey".toList "0a".toList))) =
    "0a".toList :=
  (passkey_arrives _ _ "t".toList "e".toList "get=Login&nonce=0a".toList (bytes_of (by decide +kernel))
    (bytes_of (by decide +kernel)) (bytes_of (by decide +kernel)) (bytes_of (by decide +kernel))
    (bytes_of (by decide +kernel))).1

example : passkeyPage "get=Login&nonce=0a".toList "t.o".toList = "get=Login&redirect=t.o".toList := by decide +kernel

end Ex

end Verif.Queries
