import Verif.Model.Wire
import Verif.Props.LogLines
import Verif.Props.Headers
import Verif.Props.OcspHttp
import Verif.Props.Path
/-
C140: the backend server gets the method, the target and the body that the client sent; the path is in its
canonical form, in which no order of decoding and resolving finds another page.
-/
namespace Verif.Wire

open Verif.Path (Str splitSlash pathClean)
open Verif.LogLines (Url parseTarget urlString escapedPath validChar parse_parts unescape_escape)
open Verif.LogLines.Spec (Bytes)
open Verif.OcspHttp (pathUnescape unhex unescape_cons unescape_esc unhex_hexDigit)
open Verif.Redirect (escape)
open Verif.Http (Ctx Be Req serve Override)

namespace Spec

/-- Percent-decoding. -/
inductive Decodes : Str → Str → Prop
  | nil : Decodes [] []
  | plain {c : Char} {s p : Str} : c ≠ '%' → Decodes s p → Decodes (c :: s) (c :: p)
  | escaped {a b : Char} {x y : Nat} {s p : Str} : OcspHttp.Spec.hexDigit x a → OcspHttp.Spec.hexDigit y b →
      Decodes s p → Decodes ('%' :: a :: b :: s) (Char.ofNat (16 * x + y) :: p)

/-- A target consists of an encoded path and a query, which is missing or begins with '?'. -/
def Parts (target raw query : Str) : Prop :=
  target = raw ++ query ∧ '?' ∉ raw ∧ (query = [] ∨ query.head? = some '?')

/-- One of the segments of the path. -/
def HasSegment (p s : Str) : Prop :=
  ∃ a b, p = a ++ '/' :: (s ++ b) ∧ (b = [] ∨ b.head? = some '/')

/-- The bytes that RFC 3986 allows in an encoded path, with the brackets that are often seen. -/
def PathByte (c : Char) : Prop :=
  c ∈ "abcdefghijklmnopqrstuvwxyzABCDEFGHIJKLMNOPQRSTUVWXYZ0123456789-._~!$&'()*+,;=:@[]%/".toList

/-- Whether the path is put into its canonical form: what the path override says that the request is subject
to, if any, else what the backend says, and by default yes. -/
def Sanitize (be : Be) (o : Option Override) : Prop :=
  ((o.bind (·.sanitize)).or be.sanitize).getD true = true

end Spec

open Spec

theorem decodes_iff (s p : Str) : pathUnescape s = some p ↔ Decodes s p := by
  constructor
  · induction s using pathUnescape.induct generalizing p with
    | case1 => rintro ⟨⟩; exact .nil
    | case2 a b t x y r hr hy hx ih =>
      intro h
      rw [unescape_esc hx hy, hr] at h
      cases h
      exact .escaped (unhex_hexDigit hx) (unhex_hexDigit hy) (ih _ hr)
    | case3 a b t hno ih =>
      intro h
      rw [pathUnescape] at h
      split at h
      · rename_i x y r h1 h2 h3
        exact absurd h3 (hno x y r h1 h2)
      · cases h
    | case4 => intro h; exact (nomatch h)
    | case5 => intro h; exact (nomatch h)
    | case6 c t h1 h2 h3 ih =>
      intro h
      by_cases hc : c = '%'
      · subst hc
        match t, h1, h2, h3 with
        | [], _, _, h3 => exact absurd rfl (h3 rfl)
        | [x], _, h2, _ => exact absurd rfl (h2 x rfl)
        | x :: y :: t, h1, _, _ => exact absurd rfl (h1 x y t rfl)
      · rw [unescape_cons hc] at h
        cases hu : pathUnescape t with
        | none => rw [hu] at h; cases h
        | some q => rw [hu] at h; cases h; exact .plain hc (ih _ hu)
  · intro h
    induction h with
    | nil => rfl
    | plain hc _ ih => rw [unescape_cons hc, ih]; rfl
    | escaped ha hb _ ih =>
      rw [unescape_esc (OcspHttp.hexDigit_unhex ha).1 (OcspHttp.hexDigit_unhex hb).1, ih]; rfl

/-- A slash of the encoded path is one of the decoded path. -/
theorem decodes_slash {t : Str} : ∀ {s p : Str} (a : Str), s = a ++ '/' :: t → Decodes s p →
    ∃ a' t', p = a' ++ '/' :: t' ∧ Decodes t t' := by
  intro s p a he h
  induction h generalizing a with
  | nil => simp at he
  | @plain c s p hc h ih =>
    cases a with
    | nil => cases he; exact ⟨[], p, rfl, h⟩
    | cons x a =>
      cases he
      obtain ⟨a', t', rfl, ht⟩ := ih a rfl
      exact ⟨c :: a', t', rfl, ht⟩
  | @escaped u v x y s p hu hv h ih =>
    have nu := (OcspHttp.hexDigit_unhex hu).2
    have nv := (OcspHttp.hexDigit_unhex hv).2
    match a, he with
    | [_, _], he => simp at he; exact absurd he.2.2.1 nv
    | [_], he => simp at he; exact absurd he.2.1 nu
    | _ :: _ :: _ :: a, he =>
      simp only [List.cons_append, List.cons.injEq] at he
      obtain ⟨a', t', rfl, ht⟩ := ih a he.2.2.2
      exact ⟨_ :: a', t', rfl, ht⟩

theorem decodes_dots {s b p : Str} (hs : s = ['.'] ∨ s = ['.', '.']) (hb : b = [] ∨ b.head? = some '/')
    (h : Decodes (s ++ b) p) : ∃ b', p = s ++ b' ∧ (b' = [] ∨ b'.head? = some '/') := by
  have hb' : ∀ q, Decodes b q → q = [] ∨ q.head? = some '/' := by
    intro q hq
    rcases hb with rfl | hb
    · cases hq; exact .inl rfl
    · cases hq with
      | nil => exact .inl rfl
      | plain hc _ => exact .inr hb
      | escaped => simp at hb
  rcases hs with rfl | rfl
  · cases h with
    | plain _ h => exact ⟨_, rfl, hb' _ h⟩
  · cases h with
    | plain _ h =>
      cases h with
      | plain _ h => exact ⟨_, rfl, hb' _ h⟩

/-- Whoever resolves the dots before decoding finds none if there are none afterwards. -/
theorem segment_decodes {raw p s : Str} (h : Decodes raw p) (hs : s = ['.'] ∨ s = ['.', '.']) (hr : HasSegment raw s) :
    HasSegment p s := by
  obtain ⟨a, b, he, hb⟩ := hr
  obtain ⟨a', t', rfl, ht⟩ := decodes_slash a he h
  obtain ⟨b', rfl, hb'⟩ := decodes_dots hs hb ht
  exact ⟨a', b', rfl, hb'⟩

theorem segment_split {p s : Str} (hs : '/' ∉ s) (h : HasSegment p s) : s ∈ splitSlash p := by
  obtain ⟨a, b, rfl, hb⟩ := h
  have key : ∀ a t : Str, s ∈ splitSlash t → s ∈ (splitSlash (a ++ '/' :: t)).tail := by
    intro a
    induction a with
    | nil => intro t ht; rw [List.nil_append, Path.splitSlash_slash]; exact ht
    | cons c a ih =>
      intro t ht
      have hm := ih t ht
      by_cases hc : c = '/'
      · subst hc
        rw [List.cons_append, Path.splitSlash_slash]
        exact List.mem_of_mem_tail hm
      · rw [List.cons_append, splitSlash, if_neg hc]
        split
        · rename_i h; exact absurd h (Path.splitSlash_ne _)
        · rename_i x l h; rw [h] at hm; exact hm
  refine List.mem_of_mem_tail (key a _ ?_)
  rcases hb with rfl | hb
  · rw [List.append_nil, Path.splitSlash_last _ hs]; simp
  · cases b with
    | nil => cases hb
    | cons c b =>
      cases hb
      rw [Path.splitSlash_seg _ _ hs]; simp

/-- A path in canonical form has no dots to resolve. -/
theorem clean_segments (p s : Str) (hs : s = ['.'] ∨ s = ['.', '.']) : ¬ HasSegment (pathClean p) s := by
  intro h
  have hm := segment_split (by rcases hs with rfl | rfl <;> decide) h
  obtain ⟨_, ⟨segs, b, he, hp⟩, _⟩ := Path.pathClean_good p
  rw [he] at hm
  unfold Path.Spec.render at hm
  have hns : ∀ x ∈ segs, '/' ∉ x := fun x hx => (hp x hx).2.2.2
  have hmem : s = [] ∨ s ∈ segs := by
    rw [List.cons_append, Path.splitSlash_slash, List.mem_cons] at hm
    rcases hm with hm | hm
    · exact .inl hm
    by_cases h0 : segs = []
    · subst h0
      left
      simpa [List.intercalate, splitSlash] using hm
    split at hm
    · rw [Path.split_append_slash, Path.split_intercalate segs hns h0, List.mem_append] at hm
      rcases hm with hm | hm
      · exact .inr hm
      · exact .inl (by simpa using hm)
    · rw [List.append_nil, Path.split_intercalate segs hns h0] at hm
      exact .inr hm
  rcases hmem with h | h
  · rcases hs with rfl | rfl <;> cases h
  · rcases hs with rfl | rfl
    · exact (hp _ h).2.1 rfl
    · exact (hp _ h).2.2.1 rfl

/-! ## The request line -/

namespace Spec

/-- The path override that a request for the path is subject to, if any. -/
def Subject (be : Be) (path : Str) : Option Override → Prop
  | none => Http.Spec.NoneApplies be.overrides (pathClean path)
  | some o => ∃ i, Http.Spec.First be.overrides (pathClean path) i o

end Spec

theorem forward_path {c : Ctx} {be : Be} {r : Req} {p : Str} {hs : Http.Headers} {ck : List (String × String)}
    {ov : Option Nat} {k : Str} (h : serve c be r = .forward p hs ck ov k) :
    ∃ o, Subject be r.path o ∧ (Sanitize be o → p = pathClean r.path) ∧ (¬ Sanitize be o → p = r.path) := by
  obtain ⟨a, ck', hp, h2⟩ := Http.serve_last (.inl ⟨p, hs, ck, ov, k, h⟩)
  rw [h] at h2
  split at h2
  · have hrp := Http.reverseProxy_inv c be r a.headers ck'
    rw [← h2] at hrp
    cases hrp with
    | forward _ ver san hdrs v hm ha hsel hv =>
      have hc := Http.choose_spec (pathClean r.path) be.overrides 0
      generalize Http.chooseOverride (pathClean r.path) 0 be.overrides = ch at hc hsel
      cases hsel with
      | own => exact ⟨none, hc, fun h => if_pos h, fun h => if_neg h⟩
      | override i o =>
        obtain ⟨j, _, h3, _⟩ := hc
        exact ⟨some o, ⟨j, h3⟩, fun h => if_pos h, fun h => if_neg h⟩
  · cases h2

theorem forward_some {c : Ctx} {be : Be} {r : Req} {m o : Message} (h : forward c be r m = some o) :
    ∃ u p, parseTarget m.target = some u ∧ o.method = m.method ∧ o.target = urlString { u with path := p } ∧
      o.body = bodyOut m ∧ o.length = lengthOut m ∧
      ∃ ov, Subject be u.path ov ∧ (Sanitize be ov → p = pathClean u.path) ∧ (¬ Sanitize be ov → p = u.path) := by
  unfold forward at h
  split at h
  · cases h
  · rename_i u hu
    split at h
    · rename_i p _ _ _ _ hs
      cases h
      exact ⟨u, p, hu, rfl, rfl, rfl, rfl, forward_path hs⟩
    · cases h

theorem parse_split {t : Str} {u : Url} (h : parseTarget t = some u) :
    ∃ raw q, Parts t raw q ∧ Decodes raw u.path ∧ u.rawPath = (if escape u.path = raw then [] else raw) ∧
      (if u.forceQuery ∨ u.rawQuery ≠ [] then '?' :: u.rawQuery else []) = q ∧ raw.head? = some '/' := by
  unfold parseTarget at h
  split at h
  · cases h
  split at h
  · cases h
  rename_i hh
  dsimp only at h
  split at h
  · cases h
  · rename_i path hp
    cases h
    refine ⟨t.takeWhile (· ≠ '?'), t.dropWhile (· ≠ '?'), ⟨(List.takeWhile_append_dropWhile).symm, ?_, ?_⟩,
      (decodes_iff _ _).mp hp, rfl, ?_, ?_⟩
    · intro hm
      have := List.all_eq_true.mp (List.all_takeWhile (l := t) (p := (· ≠ '?'))) _ hm
      simp at this
    · cases hd : t.dropWhile (· ≠ '?') with
      | nil => exact .inl rfl
      | cons c d =>
        right
        have := List.head?_dropWhile_not (· ≠ '?') t
        rw [hd] at this
        simpa using this
    · dsimp only
      have hq : '?' ∉ t.takeWhile (· ≠ '?') := by
        intro hm
        have := List.all_eq_true.mp (List.all_takeWhile (l := t) (p := (· ≠ '?'))) _ hm
        simp at this
      have hs : t.takeWhile (· ≠ '?') ++ t.dropWhile (· ≠ '?') = t := List.takeWhile_append_dropWhile
      cases hd : t.dropWhile (· ≠ '?') with
      | nil =>
        rw [hd, List.append_nil] at hs
        rw [hs] at hq
        simp [hq]
      | cons c d =>
        have hc := List.head?_dropWhile_not (· ≠ '?') t
        rw [hd] at hc
        have hc : c = '?' := by simpa using hc
        subst hc
        have hm : '?' ∈ t := by rw [← hs, hd]; simp
        by_cases h0 : d = []
        · subst h0; simp [hm]
        · simp [h0]
    · cases t with
      | nil => simp at hh
      | cons c t =>
        simp only [List.head?_cons, ne_eq, Option.some.injEq, Decidable.not_not] at hh
        subst hh
        rfl

theorem valid_of {x : Char} (h : PathByte x) : validChar x = true := by
  have : ∀ y ∈ "abcdefghijklmnopqrstuvwxyzABCDEFGHIJKLMNOPQRSTUVWXYZ0123456789-._~!$&'()*+,;=:@[]%/".toList,
      validChar y = true := by decide +kernel
  exact this x h

/-- A path is written so that it is read again as it was. -/
theorem written {u : Url} (hb : Bytes u.path) (hr : '?' ∉ u.rawPath) :
    Decodes (escapedPath u) u.path ∧ '?' ∉ escapedPath u := by
  unfold escapedPath
  split
  · rename_i h
    exact ⟨(decodes_iff _ _).mp h.2.2, hr⟩
  · exact ⟨(decodes_iff _ _).mp (unescape_escape _ hb), fun hm => (Redirect.escape_range hb _ hm).2.2.2.1 rfl⟩

/-- C140 (request line). The backend server gets the method and the query as they are. It reads the same
path, or the canonical form of it where that is configured. -/
theorem line_kept {c : Ctx} {be : Be} {r : Req} {m o : Message} (hb : Bytes m.target) (h : forward c be r m = some o) :
    o.method = m.method ∧
    ∃ raw raw' path path' q ov, Parts m.target raw q ∧ Decodes raw path ∧ Parts o.target raw' q ∧ Decodes raw' path' ∧
      Subject be path ov ∧ (Sanitize be ov → path' = Path.Spec.clean path) ∧ (¬ Sanitize be ov → path' = path) := by
  obtain ⟨u, p, hu, hm, ht, _, _, ov, hs, h1, h2⟩ := forward_some h
  obtain ⟨raw, q, hp, hd, hr, hq, _⟩ := parse_split hu
  have hub := (parse_parts hb hu).2.1
  have hpb : Bytes p := by
    by_cases hx : Sanitize be ov
    · rw [h1 hx]; exact Redirect.clean_bytes hub
    · rw [h2 hx]; exact hub
  have hnq : '?' ∉ u.rawPath := by
    rw [hr]
    split
    · exact fun h => (nomatch h)
    · exact hp.2.1
  have hw := written (u := { u with path := p }) hpb hnq
  refine ⟨hm, raw, escapedPath { u with path := p }, u.path, p, q, ov, hp, hd, ⟨?_, hw.2, hp.2.2⟩, hw.1, hs, ?_, h2⟩
  · rw [ht]
    unfold urlString
    rw [hq]
  · intro hx
    rw [h1 hx, Path.pathClean_canonical]

theorem parts_unique {t raw raw' q q' : Str} (h : Parts t raw q) (h' : Parts t raw' q') : raw = raw' ∧ q = q' := by
  obtain ⟨rfl, hn, hq⟩ := h
  obtain ⟨he, hn', hq'⟩ := h'
  induction raw generalizing raw' with
  | nil =>
    cases raw' with
    | nil => exact ⟨rfl, he⟩
    | cons c raw' =>
      rcases hq with rfl | hq
      · cases he
      · rw [List.nil_append] at he
        rw [he] at hq
        cases hq
        simp at hn'
  | cons c raw ih =>
    cases raw' with
    | nil =>
      rcases hq' with rfl | hq'
      · cases he
      · rw [List.nil_append] at he
        rw [← he] at hq'
        cases hq'
        simp at hn
    | cons d raw' =>
      simp only [List.cons_append, List.cons.injEq] at he
      obtain ⟨rfl, he⟩ := he
      have := ih (fun h => hn (by simp [h])) he (fun h => hn' (by simp [h]))
      exact ⟨by rw [this.1], this.2⟩

/-- C140 (same target). If the path is already in canonical form, or need not be, the target is the same byte for
byte, unless its path has bytes that must not stand in one. -/
theorem target_kept {c : Ctx} {be : Be} {r : Req} {m o : Message} (h : forward c be r m = some o) {raw path q : Str}
    (hp : Parts m.target raw q) (hd : Decodes raw path) (hv : ∀ x ∈ raw, PathByte x)
    (hc : Path.Spec.clean path = path ∨ ∀ ov, Subject be path ov → ¬ Sanitize be ov) : o.target = m.target := by
  obtain ⟨u, p, hu, hm, ht, _, _, ov, hs, h1, h2⟩ := forward_some h
  obtain ⟨raw', q', hp', hd', hr, hq, hh⟩ := parse_split hu
  obtain ⟨rfl, rfl⟩ := parts_unique hp' hp
  have hpath : u.path = path := by
    have := ((decodes_iff _ _).mpr hd').symm.trans ((decodes_iff _ _).mpr hd)
    exact Option.some.inj this
  have hpp : p = u.path := by
    by_cases hx : Sanitize be ov
    · rcases hc with hc | hc
      · rw [h1 hx, Path.pathClean_canonical, hpath, hc]
      · exact absurd hx (hc ov (hpath ▸ hs))
    · exact h2 hx
  subst hpp
  rw [ht, hp.1]
  unfold urlString
  rw [hq]
  congr 1
  unfold escapedPath
  rw [hr]
  by_cases he : escape u.path = raw'
  · rw [if_pos he, if_neg (by simp)]; exact he
  · rw [if_neg he, if_pos]
    refine ⟨fun h0 => ?_, ?_, (decodes_iff _ _).mpr hd'⟩
    · rw [h0] at hh; cases hh
    · rw [List.all_eq_true]
      intro x hx
      exact valid_of (hv x hx)

/-- C140 (no second meaning). Where paths are put into canonical form, the path that the backend server gets has no
segment "." or "..", neither as it is written nor as it is read: servers that resolve these before they decode and
servers that decode first come to the same page. -/
theorem no_second_meaning {c : Ctx} {be : Be} {r : Req} {m o : Message} (hb : Bytes m.target)
    (h : forward c be r m = some o) (hs : ∀ ov, Sanitize be ov ∨ ∀ path, ¬ Subject be path ov) :
    ∃ raw path q, Parts o.target raw q ∧ Decodes raw path ∧
      ∀ s, s = ['.'] ∨ s = ['.', '.'] → ¬ HasSegment raw s ∧ ¬ HasSegment path s := by
  obtain ⟨_, _, raw', path, path', q, ov, _, _, hp, hd, hsub, h1, _⟩ := line_kept hb h
  refine ⟨raw', path', q, hp, hd, fun s hdot => ?_⟩
  have hsan : Sanitize be ov := (hs ov).resolve_right fun hn => hn path hsub
  have hno : ¬ HasSegment path' s := by
    rw [h1 hsan, ← Path.pathClean_canonical]
    exact clean_segments path s hdot
  exact ⟨fun hr => hno (segment_decodes hd hdot hr), hno⟩

/-! ## The body -/

namespace Spec

/-- What net/http guarantees about a request it hands to a handler. -/
def Read (m : Message) : Prop := ∀ n, m.length = some n → m.body.length = n

end Spec

/-- C140, for bodies: it is sent on unchanged if its length is announced or the method is POST, PUT or PATCH.
Missing: the other methods. -/
theorem body_partial {c : Ctx} {be : Be} {r : Req} {m o : Message} (hr : Read m) (h : forward c be r m = some o)
    (hm : m.length ≠ none ∨ m.method ∈ ["POST", "PUT", "PATCH"]) : o.body = m.body ∧ o.length = m.length := by
  obtain ⟨_, _, _, _, _, hb, hl, _⟩ := forward_some h
  have he : lengthOut m = m.length := by
    unfold lengthOut
    rw [if_neg]
    rintro ⟨h0, h1, h2, h3⟩
    rcases hm with hm | hm
    · exact hm h0
    · simp only [List.mem_cons, List.not_mem_nil, or_false] at hm
      rcases hm with h | h | h
      · exact h1 h
      · exact h2 h
      · exact h3 h
  refine ⟨?_, hl.trans he⟩
  rw [hb]
  unfold bodyOut
  rw [he]
  split
  · rename_i h0
    exact (List.length_eq_zero_iff.mp (hr 0 h0)).symm
  · rfl

/-- The exact condition. -/
theorem body_iff {c : Ctx} {be : Be} {r : Req} {m o : Message} (hr : Read m) (h : forward c be r m = some o) :
    o.body = m.body ↔ m.body = [] ∨ m.length ≠ none ∨ m.method ∈ ["POST", "PUT", "PATCH"] := by
  constructor
  · intro he
    by_cases hm : m.length ≠ none ∨ m.method ∈ ["POST", "PUT", "PATCH"]
    · exact .inr hm
    · left
      obtain ⟨_, _, _, _, _, hb, _, _⟩ := forward_some h
      rw [← he, hb]
      unfold bodyOut lengthOut
      rw [if_pos]
      rw [if_pos]
      simp only [List.mem_cons, List.not_mem_nil, or_false, not_or, Decidable.not_not, ne_eq] at hm
      exact ⟨hm.1, hm.2.1, hm.2.2.1, hm.2.2.2⟩
  · rintro (h0 | hm)
    · obtain ⟨_, _, _, _, _, hb, _, _⟩ := forward_some h
      rw [hb, h0]
      unfold bodyOut
      split
      · rfl
      · exact h0
    · exact (body_partial hr h hm).1

namespace Ex

def be : Be := { serverNames := ["a"], addresses := ["10.0.0.1:80"] }
def req : Req := { host := "a" }

end Ex

/-- C140 (violated). A request with any other method whose body is sent in chunks, as in a WebDAV search, reaches the
backend server without it. Nobody is told. -/
theorem body_violated (method : String) (hm : method ∉ ["POST", "PUT", "PATCH"]) (body : List Nat) (h0 : body ≠ []) :
    ∃ (c : Ctx) (be : Be) (r : Req) (m o : Message), m.method = method ∧ m.body = body ∧ Read m ∧
      forward c be r m = some o ∧ o.body = [] ∧ o.length = some 0 ∧ o.body ≠ m.body := by
  have hl : lengthOut ⟨method, "/x".toList, none, body⟩ = some 0 := by
    unfold lengthOut
    rw [if_pos]
    simp only [List.mem_cons, List.not_mem_nil, or_false, not_or] at hm
    exact ⟨rfl, hm.1, hm.2.1, hm.2.2⟩
  have hb : bodyOut ⟨method, "/x".toList, none, body⟩ = [] := by
    unfold bodyOut
    rw [hl, if_pos rfl]
  exact ⟨{}, Ex.be, Ex.req, ⟨method, "/x".toList, none, body⟩, ⟨method, "/x".toList, lengthOut _, bodyOut _⟩, rfl, rfl,
    fun n h => (nomatch h), rfl, hb, hl, by rw [hb]; exact Ne.symm h0⟩

/-- The query and the encoded slash stay, the dots go, in whichever way they are written. -/
example :
    forward {} Ex.be Ex.req ⟨"GET", "/a%2Fb?x=%2e%2e/".toList, some 0, []⟩ = some ⟨"GET", "/a%2Fb?x=%2e%2e/".toList, some 0, []⟩ ∧
    forward {} Ex.be Ex.req ⟨"POST", "/a/%2e%2e%2Fb%20c?".toList, none, [1]⟩ = some ⟨"POST", "/b%20c?".toList, none, [1]⟩ ∧
    forward {} { Ex.be with sanitize := some false } Ex.req ⟨"GET", "/a/../b".toList, some 0, []⟩ =
      some ⟨"GET", "/a/../b".toList, some 0, []⟩ ∧
    forward {} Ex.be Ex.req ⟨"PROPFIND", "/a".toList, none, [1, 2]⟩ = some ⟨"PROPFIND", "/a".toList, some 0, []⟩ ∧
    forward {} Ex.be Ex.req ⟨"GET", "/a%2".toList, none, []⟩ = none := by
  refine ⟨by decide +kernel, by decide +kernel, by decide +kernel, by decide +kernel, by decide +kernel⟩

example : Parts "/a%2Fb?x".toList "/a%2Fb".toList "?x".toList ∧ Decodes "/a%2Fb".toList "/a/b".toList ∧
    Path.Spec.clean "/a/b".toList = "/a/b".toList ∧ (∀ x ∈ "/a%2Fb".toList, PathByte x) ∧
    (∀ ov, Sanitize Ex.be ov ∨ ∀ path, ¬ Subject Ex.be path ov) := by
  refine ⟨⟨by decide, by decide, by decide⟩, (decodes_iff _ _).mp (by decide +kernel), by decide +kernel, ?_, ?_⟩
  · unfold PathByte; decide +kernel
  · rintro (_ | o)
    · exact .inl rfl
    · right
      rintro path ⟨i, h⟩
      exact (nomatch h.1)

end Verif.Wire
