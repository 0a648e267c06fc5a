import Verif.Model.Expand
import Verif.Props.Headers
/-
C133, C134, C135: the configured headers of forwarded requests, the variables in them, and the
host that the backend server is told.
-/
namespace Verif.Http

open Verif.Path (Str pathClean)

/-! ## C133 -/

/-- The headers configured for a forwarded request, by the override it is subject to. -/
def Spec.configured (be : Be) (ov : Option Nat) : List (String × String) :=
  match ov.bind (be.overrides[·]?) with
  | some o => o.headers.getD be.headers
  | none => be.headers

/-- The headers of a forwarded request, for the headers configured. -/
theorem forward_exact {c : Ctx} {be : Be} {r : Req} {p : Str} {hs : Headers}
    {ck : List (String × String)} {ov : Option Nat} {k : Str}
    (h : serve c be r = .forward p hs ck ov k) :
    ∃ a v, authenticate c be r = .ok a ∧ c.hostname (Spec.target c r) ∈ be.serverNames ∧
      via c.me r.proto ((a.headers.set "Host" (Spec.target c r).toList).get viaHeader) = some v ∧
      hs = reverseProxyHeaders c be (setHeaders c (Spec.configured be ov)
        ((a.headers.set "Host" (Spec.target c r).toList).set viaHeader v)) := by
  obtain ⟨a, ck', hp, h2⟩ := serve_last (.inl ⟨p, hs, ck, ov, k, h⟩)
  rw [h] at h2
  split at h2
  · have hrp := reverseProxy_inv c be r a.headers ck'
    rw [← h2] at hrp
    cases hrp with
    | forward _ ver san hdrs v hm ha hsel hv =>
      refine ⟨a, v, hp.1, hm, hv, ?_⟩
      have hc := choose_spec (pathClean r.path) be.overrides 0
      generalize chooseOverride (pathClean r.path) 0 be.overrides = ch at hc hsel
      cases hsel with
      | own => rfl
      | override i o =>
        obtain ⟨j, hj, h3, _⟩ := hc
        have : i = j := by omega
        subst this
        have : Spec.configured be (some i) = o.headers.getD be.headers := by
          simp only [Spec.configured, Option.bind_some, h3.1]
        rw [this]
  · cases h2

theorem setHeaders_configured (c : Ctx) (hdrs : List (String × String)) (h : Headers) {n v : String}
    (hm : (n, v) ∈ hdrs) (hd : (hdrs.map (·.1)).Nodup) :
    (setHeaders c hdrs h).values n = if c.expand v = [] then [] else [c.expand v] := by
  induction hdrs generalizing h with
  | nil => cases hm
  | cons a t ih =>
    obtain ⟨k, w⟩ := a
    simp only [List.map_cons, List.nodup_cons] at hd
    unfold setHeaders
    rcases List.mem_cons.1 hm with e | hm'
    · cases e
      rw [values_setHeaders c t _ _ hd.1]
      by_cases he : c.expand v = []
      · rw [if_pos he, if_neg (by simp [he]), values_del_self]
      · rw [if_neg he, if_pos he, values_set_self]
    · exact ih _ hm' hd.2

/-- The headers that never pass a proxy. Three more are hop-by-hop, and put back for a request
that wants to upgrade its connection or asks for trailers: Connection, Upgrade and Te. -/
def Spec.hopByHop : List String :=
  ["Proxy-Connection", "Keep-Alive", "Proxy-Authenticate", "Proxy-Authorization", "Trailer",
    "Transfer-Encoding"]

/-- C133. A hop-by-hop header of the request is not forwarded, and a configured one is not
either. -/
theorem hop_by_hop_removed (c : Ctx) (be : Be) (r : Req) (p : Str) (hs : Headers)
    (ck : List (String × String)) (ov : Option Nat) (k : Str)
    (h : serve c be r = .forward p hs ck ov k) (n : String) (hn : n ∈ Spec.hopByHop) :
    hs.values n = [] := by
  obtain ⟨a, v, _, _, _, rfl⟩ := forward_exact h
  have h1 : n ≠ xffHeader := by
    rintro rfl; exact absurd hn (by decide)
  have h2 : n ≠ xfccHeader := by
    rintro rfl; exact absurd hn (by decide)
  have h3 : n ∈ hopHeaders := by
    simp only [Spec.hopByHop, List.mem_cons, List.not_mem_nil, or_false] at hn
    rcases hn with rfl | rfl | rfl | rfl | rfl | rfl <;> decide
  rw [values_reverseProxyHeaders c be _ h1 h2, if_pos (.inr h3)]

/-- C133. A forwarded request has every header configured for its backend, or for the override
it is subject to, with the configured value alone, whatever the client sent, and does not have
the header at all if that value is empty. Excepted are the headers that say who the client is
(C31), the hop-by-hop headers, and those that a configured or received Connection header names.
-/
theorem configured_header (c : Ctx) (be : Be) (r : Req) (p : Str) (hs : Headers)
    (ck : List (String × String)) (ov : Option Nat) (k : Str)
    (h : serve c be r = .forward p hs ck ov k) (n v : String)
    (hn : (n, v) ∈ Spec.configured be ov) (hd : ((Spec.configured be ov).map (·.1)).Nodup)
    (hc : "Connection" ∉ (Spec.configured be ov).map (·.1))
    (h1 : n ∉ ["X-Forwarded-For", "X-Forwarded-Client-Cert"])
    (h2 : n ∉ Spec.hopByHop) (h3 : n ∉ ["Connection", "Upgrade", "Te"])
    (h4 : n ∉ Spec.connListed c r.headers) :
    hs.values n = if c.expand v = [] then [] else [c.expand v] := by
  obtain ⟨a, w, ha, _, _, rfl⟩ := forward_exact h
  have hau := authenticate_uid ha
  simp only [List.mem_cons, List.not_mem_nil, or_false, not_or] at h1 h3
  rw [values_reverseProxyHeaders c be _ h1.1 h1.2, if_neg, setHeaders_configured c _ _ hn hd]
  rintro (hx | hx)
  · unfold Spec.connListed at hx h4
    rw [values_setHeaders c _ _ "Connection" hc, values_set_ne _ _ (by decide),
      values_set_ne _ _ (by decide), hau.1 _ (by decide)] at hx
    exact h4 hx
  · simp only [Spec.hopByHop, List.mem_cons, List.not_mem_nil, or_false, not_or] at h2
    simp only [hopHeaders, List.mem_cons, List.not_mem_nil, or_false] at hx
    rcases hx with e | e | e | e | e | e | e | e | e
    · exact h3.1 e
    · exact h2.1 e
    · exact h2.2.1 e
    · exact h2.2.2.1 e
    · exact h2.2.2.2.1 e
    · exact h3.2.2 e
    · exact h2.2.2.2.2.1 e
    · exact h2.2.2.2.2.2 e
    · exact h3.2.1 e

/-- C133. All other headers are forwarded as received: those that are not configured, that the
proxy does not set itself, and that are not hop-by-hop. -/
theorem other_headers (c : Ctx) (be : Be) (r : Req) (p : Str) (hs : Headers)
    (ck : List (String × String)) (ov : Option Nat) (k : Str)
    (h : serve c be r = .forward p hs ck ov k) (n : String)
    (hn : n ∉ (Spec.configured be ov).map (·.1))
    (hc : "Connection" ∉ (Spec.configured be ov).map (·.1))
    (h1 : n ∉ ["X-Forwarded-For", "X-Forwarded-Client-Cert", "X-Tlsproxy-User-Id", "Via", "Host"])
    (h2 : n ∉ Spec.hopByHop) (h3 : n ∉ ["Connection", "Upgrade", "Te"])
    (h4 : n ∉ Spec.connListed c r.headers) :
    hs.values n = r.headers.values n := by
  obtain ⟨a, w, ha, _, _, rfl⟩ := forward_exact h
  have hau := authenticate_uid ha
  simp only [List.mem_cons, List.not_mem_nil, or_false, not_or] at h1 h3
  rw [values_reverseProxyHeaders c be _ h1.1 h1.2.1, if_neg, values_setHeaders c _ _ _ hn,
    values_set_ne (k' := viaHeader) _ _ h1.2.2.2.1, values_set_ne _ _ h1.2.2.2.2, hau.1 n h1.2.2.1]
  rintro (hx | hx)
  · unfold Spec.connListed at hx h4
    rw [values_setHeaders c _ _ "Connection" hc, values_set_ne _ _ (by decide),
      values_set_ne _ _ (by decide), hau.1 _ (by decide)] at hx
    exact h4 hx
  · simp only [Spec.hopByHop, List.mem_cons, List.not_mem_nil, or_false, not_or] at h2
    simp only [hopHeaders, List.mem_cons, List.not_mem_nil, or_false] at hx
    rcases hx with e | e | e | e | e | e | e | e | e
    · exact h3.1 e
    · exact h2.1 e
    · exact h2.2.1 e
    · exact h2.2.2.1 e
    · exact h2.2.2.2.1 e
    · exact h3.2.2 e
    · exact h2.2.2.2.2.1 e
    · exact h2.2.2.2.2.2 e
    · exact h3.2.1 e

/-- A backend with a configured header, which an override replaces by two others. -/
def Spec.twoLevels : Be :=
  { serverNames := ["a"], addresses := ["10.0.0.1:80"], headers := [("X-Test", "foo")],
    overrides := [
      { paths := ["/o/".toList]
        addresses := ["10.0.0.2:80"]
        headers := some [("X-Test", ""), ("X-Other", "bar")] }] }

/-- Non-vacuity: the client's own headers are replaced or removed, others kept. -/
example :
    let r : Req := { host := "a", headers := [("X-Test", "evil".toList), ("Keep-Alive", "1".toList),
      ("Accept", "x".toList), ("Accept", "y".toList)] }
    (match serve Spec.oneName Spec.twoLevels r with
      | .forward _ hs _ ov _ => ov = none ∧ hs.values "X-Test" = ["foo".toList] ∧
          hs.values "Keep-Alive" = [] ∧ hs.values "Accept" = ["x".toList, "y".toList]
      | _ => False) ∧
    (match serve Spec.oneName Spec.twoLevels { r with path := "/o/p".toList } with
      | .forward _ hs _ ov _ => ov = some 0 ∧ hs.values "X-Test" = [] ∧
          hs.values "X-Other" = ["bar".toList]
      | _ => False) ∧
    ((Spec.configured Spec.twoLevels none).map (·.1)).Nodup ∧
    ((Spec.configured Spec.twoLevels (some 0)).map (·.1)).Nodup ∧
    "X-Test" ∉ Spec.connListed Spec.oneName r.headers := by
  refine ⟨⟨rfl, rfl, rfl, rfl⟩, ⟨rfl, rfl, rfl⟩, ?_, ?_, ?_⟩ <;> decide +kernel

/-! ## C134 -/

/-- A piece of a configured header value: text, `${name}`, `$name`, `$` with a special character or a
digit, and the odd ones: a dollar sign on its own, `${}`, and `${` without a closing brace. -/
inductive Spec.Piece where
  | text (s : Str)
  | braced (n : Str)
  | bare (n : Str)
  | special (c : Char)
  | dollar
  | empty
  | opened

/-- How a piece is written. -/
def Spec.Piece.written : Spec.Piece → Str
  | .text s => s
  | .braced n => '$' :: '{' :: n ++ ['}']
  | .bare n => '$' :: n
  | .special c => ['$', c]
  | .dollar => ['$']
  | .empty => "${}".toList
  | .opened => "${".toList

/-- What a piece becomes, if variables have the given values. -/
def Spec.Piece.becomes (m : Str → Str) : Spec.Piece → Str
  | .text s => s
  | .braced n => m n
  | .bare n => m n
  | .special c => m [c]
  | .dollar => ['$']
  | .empty => []
  | .opened => []

/-- Letters, digits and underscores. -/
def Spec.wordChar (c : Char) : Prop :=
  c = '_' ∨ ('0' ≤ c ∧ c ≤ '9') ∨ ('a' ≤ c ∧ c ≤ 'z') ∨ ('A' ≤ c ∧ c ≤ 'Z')

/-- What can follow a dollar sign directly, as the name of a variable. -/
def Spec.specialChar (c : Char) : Prop := c ∈ "*#$@!?-0123456789".toList

/-- The pieces can be told apart: text has no dollar sign, names are not empty, a name in braces
has no closing brace, and one without braces starts with a letter or an underscore, goes on with
such or digits, and is followed by something else. After a dollar sign on its own comes nothing that
could be a name, and after an open brace no closing one. -/
def Spec.Separate : List Spec.Piece → Prop
  | [] => True
  | .text s :: t => '$' ∉ s ∧ Spec.Separate t
  | .braced n :: t => n ≠ [] ∧ '}' ∉ n ∧ Spec.Separate t
  | .bare n :: t =>
    (∃ c w, n = c :: w ∧ ¬ ('0' ≤ c ∧ c ≤ '9')) ∧ (∀ c ∈ n, Spec.wordChar c) ∧
    (∀ c, (t.flatMap Spec.Piece.written).head? = some c → ¬ Spec.wordChar c) ∧ Spec.Separate t
  | .special c :: t => Spec.specialChar c ∧ Spec.Separate t
  | .dollar :: t =>
    (∀ c, (t.flatMap Spec.Piece.written).head? = some c → ¬ Spec.wordChar c ∧ ¬ Spec.specialChar c ∧ c ≠ '{') ∧
    Spec.Separate t
  | .empty :: t => Spec.Separate t
  | .opened :: t => '}' ∉ t.flatMap Spec.Piece.written ∧ Spec.Separate t

theorem osExpand_text (m : Str → Str) (s t : Str) (h : '$' ∉ s) :
    osExpand m (s ++ t) = s ++ osExpand m t := by
  induction s with
  | nil => rfl
  | cons c s ih =>
    simp only [List.mem_cons, not_or] at h
    rw [List.cons_append, osExpand, if_neg (by rintro ⟨e, _⟩; exact h.1 e.symm), ih h.2]
    rfl

theorem toBrace_append (n t : Str) (h : '}' ∉ n) : toBrace (n ++ '}' :: t) = some n := by
  induction n with
  | nil => simp [toBrace]
  | cons c n ih =>
    simp only [List.mem_cons, not_or] at h
    rw [List.cons_append, toBrace, if_neg (Ne.symm h.1), ih h.2]
    rfl

theorem isAlphaNum_iff (c : Char) : isAlphaNum c = true ↔ Spec.wordChar c := by
  simp only [isAlphaNum, Spec.wordChar, Bool.or_eq_true, Bool.and_eq_true, decide_eq_true_eq, or_assoc]

theorem takeWhile_word (n t : Str) (h : ∀ c ∈ n, Spec.wordChar c)
    (ht : ∀ c, t.head? = some c → ¬ Spec.wordChar c) : (n ++ t).takeWhile isAlphaNum = n := by
  induction n with
  | nil =>
    cases t with
    | nil => rfl
    | cons c t =>
      have := ht c rfl
      rw [← isAlphaNum_iff] at this
      simp [this]
  | cons c n ih =>
    have hc := (isAlphaNum_iff c).2 (h c (List.mem_cons_self ..))
    rw [List.cons_append, List.takeWhile_cons_of_pos hc, ih fun x hx => h x (List.mem_cons_of_mem _ hx)]

theorem word_not_special {c : Char} (h : Spec.wordChar c) (hd : ¬ ('0' ≤ c ∧ c ≤ '9')) :
    isSpecialVar c = false := by
  cases hb : isSpecialVar c with
  | false => rfl
  | true =>
    exfalso
    simp only [isSpecialVar, Bool.or_eq_true, Bool.and_eq_true, decide_eq_true_eq] at hb
    rcases hb with ((((((e | e) | e) | e) | e) | e) | e) | e
    all_goals first
      | exact hd e
      | (subst e; revert h; simp only [Spec.wordChar]; decide)

theorem special_iff (c : Char) : isSpecialVar c = true ↔ Spec.specialChar c := by
  have e : "*#$@!?-0123456789".toList =
      ['*', '#', '$', '@', '!', '?', '-', '0', '1', '2', '3', '4', '5', '6', '7', '8', '9'] := by decide +kernel
  unfold Spec.specialChar
  rw [e]
  simp only [isSpecialVar, Bool.or_eq_true, Bool.and_eq_true, decide_eq_true_eq, List.mem_cons, List.not_mem_nil,
    or_false, or_assoc]
  have hd : ('0' ≤ c ∧ c ≤ '9') ↔ (c = '0' ∨ c = '1' ∨ c = '2' ∨ c = '3' ∨ c = '4' ∨ c = '5' ∨ c = '6' ∨ c = '7' ∨
      c = '8' ∨ c = '9') := by
    have l (a b : Char) : a ≤ b ↔ a.toNat ≤ b.toNat := Iff.rfl
    have q (b : Char) : c = b ↔ c.toNat = b.toNat := ⟨fun h => by rw [h], fun h => Char.toNat_inj.mp h⟩
    simp only [l, q]
    simp only [Char.reduceToNat]
    omega
  rw [hd]

theorem toBrace_none {s : Str} (h : '}' ∉ s) : toBrace s = none := by
  induction s with
  | nil => rfl
  | cons c s ih =>
    simp only [List.mem_cons, not_or] at h
    rw [toBrace, if_neg (Ne.symm h.1), ih h.2]
    rfl

/-- C134. A configured value is expanded piece by piece, once: text stays as it is, each
reference is replaced by the value of its variable, and what a value contains is not looked at
again. -/
theorem expand_pieces (m : Str → Str) (ps : List Spec.Piece) (h : Spec.Separate ps) :
    osExpand m (ps.flatMap Spec.Piece.written) = ps.flatMap (Spec.Piece.becomes m) := by
  induction ps with
  | nil => rw [List.flatMap_nil, List.flatMap_nil, osExpand]
  | cons p t ih =>
    rw [List.flatMap_cons, List.flatMap_cons]
    cases p with
    | text s =>
      rw [Spec.Separate] at h
      show osExpand m (s ++ _) = s ++ _
      rw [osExpand_text m s _ h.1, ih h.2]
    | braced n =>
      rw [Spec.Separate] at h
      have e : Spec.Piece.written (.braced n) ++ t.flatMap Spec.Piece.written =
          '$' :: '{' :: (n ++ '}' :: t.flatMap Spec.Piece.written) := by
        simp [Spec.Piece.written]
      have hs : shellName ('{' :: (n ++ '}' :: t.flatMap Spec.Piece.written)) = (n, n.length + 2) := by
        rw [shellName, if_pos rfl, toBrace_append _ _ h.2.1]
        cases n with
        | nil => exact absurd rfl h.1
        | cons _ _ => rfl
      rw [e, osExpand, if_pos ⟨rfl, by simp⟩, hs, ← ih h.2.2]
      have hv : varText m (n, n.length + 2) = m n := by
        unfold varText
        rw [if_neg (by simp [h.1]), if_neg h.1]
      rw [hv]
      congr 2
      show List.drop (n.length + 1 + 1) _ = _
      rw [List.drop_succ_cons, ← List.drop_drop]
      simp
    | bare n =>
      rw [Spec.Separate] at h
      obtain ⟨⟨c, w, rfl, hd⟩, hw, hn, ht⟩ := h
      have hc := hw c (List.mem_cons_self ..)
      have hs : shellName ((c :: w) ++ t.flatMap Spec.Piece.written) = (c :: w, (c :: w).length) := by
        rw [List.cons_append, shellName, if_neg, if_neg (by rw [word_not_special hc hd]; decide),
          ← List.cons_append, takeWhile_word _ _ hw hn]
        rintro rfl
        revert hc; simp only [Spec.wordChar]; decide
      show osExpand m ('$' :: ((c :: w) ++ _)) = m (c :: w) ++ _
      rw [osExpand, if_pos ⟨rfl, by simp⟩, hs, ← ih ht]
      have hv : varText m (c :: w, (c :: w).length) = m (c :: w) := by
        unfold varText
        rw [if_neg (by simp), if_neg (by simp)]
      rw [hv, List.drop_left]
    | special c =>
      rw [Spec.Separate] at h
      have hne : c ≠ '{' := by
        rintro rfl
        have := h.1
        revert this
        unfold Spec.specialChar
        decide +kernel
      show osExpand m ('$' :: c :: _) = m [c] ++ _
      rw [osExpand, if_pos ⟨rfl, by simp⟩, shellName, if_neg hne, if_pos ((special_iff c).mpr h.1), ← ih h.2]
      rfl
    | dollar =>
      rw [Spec.Separate] at h
      show osExpand m ('$' :: t.flatMap Spec.Piece.written) = '$' :: t.flatMap (Spec.Piece.becomes m)
      rw [← ih h.2]
      cases ht : t.flatMap Spec.Piece.written with
      | nil => rw [osExpand, osExpand, if_neg (by simp), osExpand]
      | cons c r =>
        have hc := h.1 c (by rw [ht]; rfl)
        rw [osExpand, if_pos ⟨rfl, by simp⟩]
        have hs : shellName (c :: r) = ([], 0) := by
          rw [shellName, if_neg hc.2.2, if_neg (by rw [special_iff]; exact hc.2.1),
            List.takeWhile_cons_of_neg (by rw [isAlphaNum_iff]; exact hc.1)]
          rfl
        rw [hs]
        rfl
    | empty =>
      rw [Spec.Separate] at h
      show osExpand m ('$' :: '{' :: '}' :: _) = [] ++ _
      rw [osExpand, if_pos ⟨rfl, by simp⟩, shellName, if_pos rfl, toBrace, if_pos rfl, ← ih h]
      rfl
    | opened =>
      rw [Spec.Separate] at h
      show osExpand m ('$' :: '{' :: t.flatMap Spec.Piece.written) = t.flatMap (Spec.Piece.becomes m)
      rw [osExpand, if_pos ⟨rfl, by simp⟩, shellName, if_pos rfl, toBrace_none h.1, ← ih h.2]
      rfl

example : osExpand (fun n => '<' :: n ++ ['>']) "a$1b $-x $ y${}z${NETWORK}c${d".toList =
    "a<1>b <->x $ yz<NETWORK>cd".toList := by
  have h := expand_pieces (fun n => '<' :: n ++ ['>'])
    [.text ['a'], .special '1', .text "b ".toList, .special '-', .text "x ".toList, .dollar, .text " y".toList, .empty,
      .text ['z'], .braced "NETWORK".toList, .text ['c'], .opened, .text ['d']]
    (by
      simp only [Spec.Separate, Spec.specialChar]
      refine ⟨by decide, by decide +kernel, by decide +kernel, by decide +kernel, by decide +kernel, ?_, by decide +kernel,
        by decide, by decide +kernel, by decide +kernel, by decide, by decide +kernel, by decide, trivial⟩
      intro c hc
      obtain rfl : ' ' = c := by simpa [Spec.Piece.written] using hc
      refine ⟨by simp only [Spec.wordChar]; decide, by decide +kernel, by decide⟩)
  exact h

/-- An address of the given kind of network, as text. -/
inductive Spec.Addr : NetAddr → Str → Str → Prop
  | tcp (ip t) : Addr (.tcp ip t) "tcp".toList t
  | udp (ip t) : Addr (.udp ip t) "udp".toList t
  | other (n t) : Addr (.other n t) n t

/-- The documented variables (config.go:688-695). -/
inductive Spec.Means (e : VarEnv) : Str → Str → Prop
  | network (n t) : Spec.Addr e.localAddr n t → Means e "NETWORK".toList n
  | localAddr (n t) : Spec.Addr e.localAddr n t → Means e "LOCAL_ADDR".toList t
  | remoteAddr (n t) : Spec.Addr e.remoteAddr n t → Means e "REMOTE_ADDR".toList t
  | localIP (ip t) : e.localAddr = .tcp ip t ∨ e.localAddr = .udp ip t → Means e "LOCAL_IP".toList ip
  | remoteIP (ip t) : e.remoteAddr = .tcp ip t ∨ e.remoteAddr = .udp ip t → Means e "REMOTE_IP".toList ip
  | serverName : Means e "SERVER_NAME".toList e.serverName
  | claim (n f v) : e.claims = some f → f n = some v → Means e ("JWT:".toList ++ n) v

theorem prefix_jwt (n : Str) : "JWT:".toList.isPrefixOf n = true ↔ ∃ x, n = "JWT:".toList ++ x := by
  rw [List.isPrefixOf_iff_prefix]
  constructor
  · rintro ⟨x, rfl⟩; exact ⟨x, rfl⟩
  · rintro ⟨x, rfl⟩; exact ⟨x, rfl⟩

theorem varValue_jwt (e : VarEnv) (x : Str) :
    varValue e ("JWT:".toList ++ x) = match e.claims with
      | none => []
      | some f => (f x).getD [] := by
  unfold varValue
  have h : "JWT:".toList.isPrefixOf ("JWT:".toList ++ x) = true := (prefix_jwt _).2 ⟨x, rfl⟩
  rw [if_neg, if_neg, if_neg, if_neg, if_neg, if_neg, if_pos h]
  · rfl
  all_goals
    intro e
    have h2 := congrArg List.head? e
    change some 'J' = _ at h2
    clear e h
    revert h2
    decide +kernel

theorem addr_some (a : NetAddr) : ∃ n t, Spec.Addr a n t := by
  cases a with
  | tcp ip t => exact ⟨_, _, .tcp ip t⟩
  | udp ip t => exact ⟨_, _, .udp ip t⟩
  | other n t => exact ⟨_, _, .other n t⟩

/-- C134. A variable has its documented value, and any other name none. -/
theorem variable_value (e : VarEnv) (n : Str) :
    (∀ v, Spec.Means e n v → varValue e n = v) ∧
    ((∀ v, ¬ Spec.Means e n v) → varValue e n = []) := by
  constructor
  · intro v h
    cases h with
    | network n t h =>
      show e.localAddr.network = v
      generalize e.localAddr = a at h
      cases h <;> rfl
    | localAddr n t h =>
      show e.localAddr.text = v
      generalize e.localAddr = a at h
      cases h <;> rfl
    | remoteAddr n t h =>
      show e.remoteAddr.text = v
      generalize e.remoteAddr = a at h
      cases h <;> rfl
    | localIP ip t h => rcases h with h | h <;> (show addr2ip e.localAddr = v; rw [h]; rfl)
    | remoteIP ip t h => rcases h with h | h <;> (show addr2ip e.remoteAddr = v; rw [h]; rfl)
    | serverName => rfl
    | claim x f v h1 h2 => rw [varValue_jwt, h1]; simp [h2]
  · intro h
    by_cases hj : ∃ x, n = "JWT:".toList ++ x
    · obtain ⟨x, rfl⟩ := hj
      rw [varValue_jwt]
      cases hc : e.claims with
      | none => rfl
      | some f =>
        cases hf : f x with
        | none => simp [hf]
        | some v => exact absurd (.claim x f v hc hf) (h v)
    · unfold varValue
      rw [if_neg (c := _ = true) (fun hp => hj ((prefix_jwt n).1 hp))]
      split
      · rename_i hn; subst hn; obtain ⟨n, t, ha⟩ := addr_some e.localAddr; exact absurd (.network n t ha) (h _)
      split
      · rename_i hn; subst hn; obtain ⟨n, t, ha⟩ := addr_some e.localAddr; exact absurd (.localAddr n t ha) (h _)
      split
      · rename_i hn; subst hn; obtain ⟨n, t, ha⟩ := addr_some e.remoteAddr; exact absurd (.remoteAddr n t ha) (h _)
      split
      · rename_i hn; subst hn
        cases ha : e.localAddr with
        | tcp ip t => exact absurd (.localIP ip t (.inl ha)) (h _)
        | udp ip t => exact absurd (.localIP ip t (.inr ha)) (h _)
        | other _ _ => rfl
      split
      · rename_i hn; subst hn
        cases ha : e.remoteAddr with
        | tcp ip t => exact absurd (.remoteIP ip t (.inl ha)) (h _)
        | udp ip t => exact absurd (.remoteIP ip t (.inr ha)) (h _)
        | other _ _ => rfl
      split
      · rename_i hn; subst hn; exact absurd .serverName (h _)
      rfl

/-- Non-vacuity: a header value with all kinds of pieces, and a claim that looks like a variable
reference. -/
example :
    let ps : List Spec.Piece := [.text "a ".toList, .bare "NETWORK".toList, .text "-".toList,
      .braced "JWT:name".toList, .braced "LOCAL_IP".toList, .braced "JWT:none".toList]
    let e : VarEnv :=
      { localAddr := .tcp "10.0.0.1".toList "10.0.0.1:443".toList
        remoteAddr := .udp "192.0.2.1".toList "192.0.2.1:999".toList
        serverName := "a.example".toList
        claims := some fun n => if n = "name".toList then some "${REMOTE_IP}".toList else none }
    ps.flatMap Spec.Piece.written = "a $NETWORK-${JWT:name}${LOCAL_IP}${JWT:none}".toList ∧
    expandVars e (ps.flatMap Spec.Piece.written) = "a tcp-${REMOTE_IP}10.0.0.1".toList ∧
    Spec.Separate ps ∧ Spec.Means e "JWT:name".toList "${REMOTE_IP}".toList := by
  refine ⟨by decide +kernel, ?_, ?_, .claim "name".toList _ _ rfl rfl⟩
  · unfold expandVars
    rw [expand_pieces]
    · decide +kernel
    · simp only [Spec.Separate]
      refine ⟨by decide, ⟨⟨_, _, rfl, by decide⟩, ?_, ?_, ?_⟩⟩
      · simp only [Spec.wordChar]; decide
      · intro c hc; cases hc; simp only [Spec.wordChar]; decide
      · decide
  · simp only [Spec.Separate]
    refine ⟨by decide, ⟨⟨_, _, rfl, by decide⟩, ?_, ?_, ?_⟩⟩
    · simp only [Spec.wordChar]; decide
    · intro c hc; cases hc; simp only [Spec.wordChar]; decide
    · decide

/-- The context's expansion is that of the request: its variables have the claims that
authentication has found, and no claims without an identity (backend-sso.go:95-103). -/
def Spec.Expands (c : Ctx) (be : Be) (r : Req) : Prop :=
  ∀ a, authenticate c be r = .ok a → ∃ e : VarEnv,
    (∀ s : String, c.expand s = expandVars e s.toList) ∧
    match a.claims with
    | none => e.claims = none
    | some cl => ∃ f, e.claims = some f ∧ f "email".toList = cl.email

/-- What `${JWT:email}` expands to. -/
theorem expand_email {c : Ctx} {be : Be} {r : Req} {a : Authed} (hx : Spec.Expands c be r)
    (ha : authenticate c be r = .ok a) :
    c.expand "${JWT:email}" = (a.claims.bind (·.email)).getD [] := by
  obtain ⟨e, he, hc⟩ := hx a ha
  have hp := expand_pieces (varValue e) [.braced "JWT:email".toList]
    (by simp only [Spec.Separate]; decide +kernel)
  have hw : [Spec.Piece.braced "JWT:email".toList].flatMap Spec.Piece.written = "${JWT:email}".toList := by
    decide +kernel
  have hb : [Spec.Piece.braced "JWT:email".toList].flatMap (Spec.Piece.becomes (varValue e)) =
      varValue e ("JWT:".toList ++ "email".toList) := by
    rw [List.flatMap_cons, List.flatMap_nil, List.append_nil]
    rfl
  rw [he, expandVars, ← hw, hp, hb, varValue_jwt]
  cases hcl : a.claims with
  | none =>
    rw [hcl] at hc
    dsimp only at hc
    rw [hc]; rfl
  | some cl =>
    rw [hcl] at hc
    obtain ⟨f, h1, h2⟩ := hc
    rw [h1]
    dsimp only
    rw [h2]; rfl

/-- C134. A header configured as `${JWT:email}` cannot be forged: in a forwarded request it is
absent, or its only value is the email address of the identity that the request proves. -/
theorem email_header_unforgeable (c : Ctx) (be : Be) (r : Req) (p : Str) (hs : Headers)
    (ck : List (String × String)) (ov : Option Nat) (k : Str) (hx : Spec.Expands c be r)
    (h : serve c be r = .forward p hs ck ov k) (n : String)
    (hn : (n, "${JWT:email}") ∈ Spec.configured be ov)
    (hd : ((Spec.configured be ov).map (·.1)).Nodup)
    (h1 : n ≠ "X-Forwarded-For") (h2 : n ≠ "X-Forwarded-Client-Cert") :
    hs.values n = [] ∨
    ∃ cl e, Spec.identity r = some cl ∧ cl.email = some e ∧ e ≠ [] ∧ hs.values n = [e] := by
  obtain ⟨a, w, ha, _, _, rfl⟩ := forward_exact h
  rw [values_reverseProxyHeaders c be _ h1 h2]
  split
  · exact .inl rfl
  rw [setHeaders_configured c _ _ hn hd, expand_email hx ha]
  split
  · exact .inl rfl
  · rename_i hne
    cases hcl : a.claims with
    | none => rw [hcl] at hne; exact absurd rfl hne
    | some cl =>
      rw [hcl] at hne
      cases he : cl.email with
      | none => rw [Option.bind_some, he] at hne; exact absurd rfl hne
      | some e =>
        rw [Option.bind_some, he] at hne
        right
        exact ⟨cl, e, authenticate_claims ha cl hcl, he, hne, by rw [Option.bind_some, he]; rfl⟩

theorem setHeaders_congr (c : Ctx) (hdrs : List (String × String)) (g h : Headers) (n : String)
    (e : g.values n = h.values n) : (setHeaders c hdrs g).values n = (setHeaders c hdrs h).values n := by
  induction hdrs generalizing g h with
  | nil => exact e
  | cons a t ih =>
    obtain ⟨k, v⟩ := a
    unfold setHeaders
    apply ih
    by_cases hk : n = k
    · subst hk
      split
      · rw [values_set_self, values_set_self]
      · rw [values_del_self, values_del_self]
    · split
      · rw [values_set_ne _ _ hk, values_set_ne _ _ hk, e]
      · rw [values_del_ne _ hk, values_del_ne _ hk, e]

theorem director_congr (c : Ctx) (be : Be) (g h : Headers) (n : String)
    (e : g.values n = h.values n) : (director c be g).values n = (director c be h).values n := by
  by_cases h1 : n = xfccHeader
  · subst h1
    unfold director
    dsimp only
    split
    · rw [values_set_self, values_set_self]
    · rw [values_del_self, values_del_self]
  · by_cases h2 : n = xffHeader
    · subst h2
      unfold director
      dsimp only
      split
      · rw [values_set_ne _ _ h1, values_set_ne _ _ h1, values_del_ne _ h1, values_del_ne _ h1,
          values_del_self, values_del_self]
      · rw [values_del_ne _ h1, values_del_ne _ h1, values_del_self, values_del_self]
    · rw [values_director c be g h2 h1, values_director c be h h2 h1, e]

theorem reverseProxyHeaders_congr (c : Ctx) (be : Be) (g h : Headers)
    (e : ∀ n, g.values n = h.values n) (n : String) :
    (reverseProxyHeaders c be g).values n = (reverseProxyHeaders c be h).values n := by
  have hr : ∀ n, (removeHop c (director c be g)).values n = (removeHop c (director c be h)).values n := by
    intro n
    rw [values_removeHop, values_removeHop, director_congr c be g h n (e n)]
    unfold Spec.connListed
    rw [director_congr c be g h "Connection" (e _)]
  unfold reverseProxyHeaders
  dsimp only
  by_cases hn : n = xffHeader
  · subst hn
    rw [values_set_self, values_set_self, hr]
  · rw [values_set_ne _ _ hn, values_set_ne _ _ hn, hr]

/-- C134. `setUserIdHeader` is equivalent to a header `x-tlsproxy-user-id: ${JWT:email}`, as
documented (config.go:626-630), where no override has its own headers: the requests that are
forwarded have the same headers. -/
theorem user_id_equivalent (c : Ctx) (be : Be) (s : SSO) (r : Req) (p p' : Str) (hs hs' : Headers)
    (ck ck' : List (String × String)) (ov ov' : Option Nat) (k k' : Str)
    (ho : ∀ o ∈ be.overrides, o.headers = none)
    (hn : "X-Tlsproxy-User-Id" ∉ be.headers.map (·.1))
    (hx : Spec.Expands c { be with
      sso := some { s with setUserID := false }
      headers := ("X-Tlsproxy-User-Id", "${JWT:email}") :: be.headers } r)
    (h : serve c { be with sso := some { s with setUserID := true } } r = .forward p hs ck ov k)
    (h' : serve c { be with
      sso := some { s with setUserID := false }
      headers := ("X-Tlsproxy-User-Id", "${JWT:email}") :: be.headers } r = .forward p' hs' ck' ov' k')
    (n : String) : hs.values n = hs'.values n := by
  obtain ⟨a, v, ha, _, hv, rfl⟩ := forward_exact h
  obtain ⟨a', v', ha', _, hv', rfl⟩ := forward_exact h'
  have hcfg : Spec.configured { be with sso := some { s with setUserID := true } } ov = be.headers := by
    unfold Spec.configured
    split
    · rename_i o hb
      rw [Option.bind_eq_some_iff] at hb
      obtain ⟨i, _, hi⟩ := hb
      rw [ho o (List.mem_of_getElem? hi)]; rfl
    · rfl
  have hcfg' : Spec.configured { be with
      sso := some { s with setUserID := false }
      headers := ("X-Tlsproxy-User-Id", "${JWT:email}") :: be.headers } ov' =
      ("X-Tlsproxy-User-Id", "${JWT:email}") :: be.headers := by
    unfold Spec.configured
    split
    · rename_i o hb
      rw [Option.bind_eq_some_iff] at hb
      obtain ⟨i, _, hi⟩ := hb
      rw [ho o (List.mem_of_getElem? hi)]; rfl
    · rfl
  have hu := authenticate_uid ha
  have hu' := authenticate_uid ha'
  have hvia : ∀ x, ((a.headers.set "Host" x).get viaHeader) = ((a'.headers.set "Host" x).get viaHeader) := by
    intro x
    rw [get_eq, get_eq, values_set_ne _ _ (by decide), values_set_ne _ _ (by decide),
      hu.1 _ (by decide), hu'.1 _ (by decide)]
  have hvv : v = v' := by
    rw [hvia] at hv
    rw [hv] at hv'
    exact Option.some.inj hv'
  subst hvv
  rw [hcfg, hcfg']
  have hx' := expand_email hx ha'
  apply reverseProxyHeaders_congr c be
  intro n
  have hstep : ∀ g, setHeaders c (("X-Tlsproxy-User-Id", "${JWT:email}") :: be.headers) g =
      setHeaders c be.headers (if c.expand "${JWT:email}" ≠ [] then
        g.set uidHeader (c.expand "${JWT:email}") else g.del uidHeader) := fun _ => rfl
  rw [hstep]
  by_cases hnu : n = uidHeader
  · subst hnu
    rw [values_setHeaders c _ _ uidHeader hn, values_setHeaders c _ _ uidHeader hn,
      values_set_ne _ _ (by decide), values_set_ne _ _ (by decide), hx']
    rcases hu.2 with ⟨h1, h2⟩ | ⟨s', cl, e, _, _, h3, h4, h5, h6⟩
    · have hnone := h2 _ rfl rfl
      have : a'.claims = none := by
        cases hc : a'.claims with
        | none => rfl
        | some cl =>
          rw [authenticate_identity rfl (authenticate_claims ha' cl hc) ha] at hnone
          cases hnone
      rw [h1, this, if_neg (by simp), values_del_self]
    · have : a'.claims = some cl := authenticate_identity rfl (authenticate_claims ha cl h3) ha'
      rw [h6, this, Option.bind_some, h4, if_pos (by simpa using h5), values_set_self]
      rfl
  · apply setHeaders_congr
    have : ∀ g : Headers, (if c.expand "${JWT:email}" ≠ [] then
        g.set uidHeader (c.expand "${JWT:email}") else g.del uidHeader).values n = g.values n := by
      intro g
      split
      · exact values_set_ne _ _ hnu
      · exact values_del_ne _ hnu
    refine Eq.trans ?_ (this _).symm
    by_cases h1 : n = viaHeader
    · subst h1; rw [values_set_self, values_set_self]
    · rw [values_set_ne _ _ h1, values_set_ne _ _ h1]
      by_cases h2 : n = "Host"
      · subst h2; rw [values_set_self, values_set_self]
      · rw [values_set_ne _ _ h2, values_set_ne _ _ h2, hu.1 _ hnu, hu'.1 _ hnu]

/-- Non-vacuity: a user known by a cookie, with either configuration, and a request with a forged
header. -/
example :
    let be : Be := { serverNames := ["a"], addresses := ["10.0.0.1:80"] }
    let sso : SSO := { paths := ["/private".toList] }
    let c : Ctx := { expand := fun s => if s = "${JWT:email}" then "u@a".toList else [] }
    let r : Req := { host := "a", headers := [("X-Tlsproxy-User-Id", "x@a".toList)]
                     creds := { authCookie := some { email := some "u@a".toList } } }
    (match serve c { be with sso := some { sso with setUserID := true } } r with
      | .forward _ hs _ _ _ => hs.values "X-Tlsproxy-User-Id" = ["u@a".toList]
      | _ => False) ∧
    (match serve c { be with
        sso := some sso, headers := [("X-Tlsproxy-User-Id", "${JWT:email}")] } r with
      | .forward _ hs _ _ _ => hs.values "X-Tlsproxy-User-Id" = ["u@a".toList]
      | _ => False) := by
  exact ⟨rfl, rfl⟩

/-! ## C135 -/

/-- The host that the backend server should be told: a configured Host header with a value, or
else the host that the request is for. -/
def Spec.Tell (c : Ctx) (be : Be) (ov : Option Nat) (r : Req) (host : Str) : Prop :=
  (∃ v, ("Host", v) ∈ Spec.configured be ov ∧ c.expand v ≠ [] ∧ host = c.expand v) ∨
  ((∀ v, ("Host", v) ∈ Spec.configured be ov → c.expand v = []) ∧ host = (Spec.target c r).toList)

theorem setHost_none (c : Ctx) (hdrs : List (String × String)) (h : Str)
    (hn : ∀ v, ("Host", v) ∈ hdrs → c.expand v = []) : setHost c hdrs h = h := by
  induction hdrs generalizing h with
  | nil => rfl
  | cons a t ih =>
    obtain ⟨k, v⟩ := a
    unfold setHost
    rw [if_neg, ih _ fun v' hv' => hn v' (List.mem_cons_of_mem _ hv')]
    rintro ⟨h1, rfl⟩
    exact h1 (hn v (List.mem_cons_self ..))

theorem setHost_some (c : Ctx) (hdrs : List (String × String)) (h : Str) {v : String}
    (hd : (hdrs.map (·.1)).Nodup) (hm : ("Host", v) ∈ hdrs) (hv : c.expand v ≠ []) :
    setHost c hdrs h = c.expand v := by
  induction hdrs generalizing h with
  | nil => cases hm
  | cons a t ih =>
    obtain ⟨k, w⟩ := a
    simp only [List.map_cons, List.nodup_cons] at hd
    unfold setHost
    rcases List.mem_cons.1 hm with e | hm'
    · cases e
      rw [if_pos ⟨hv, rfl⟩]
      apply setHost_none
      intro v' hv'
      exact absurd (List.mem_map.2 ⟨_, hv', rfl⟩) hd.1
    · exact ih _ hd.2 hm'

/-- C135, for requests that name a host or have one configured: the backend server is told the
configured host, or else the host that the request is for, which is one of the backend's. -/
theorem host_told_partial (c : Ctx) (be : Be) (r : Req) (p : Str) (hs : Headers)
    (ck : List (String × String)) (ov : Option Nat) (k : Str)
    (h : serve c be r = .forward p hs ck ov k)
    (hd : ((Spec.configured be ov).map (·.1)).Nodup)
    (hh : r.host ≠ "" ∨ ∃ v, ("Host", v) ∈ Spec.configured be ov ∧ c.expand v ≠ []) :
    Spec.Tell c be ov r (sentHost c (Spec.configured be ov) r k) ∧
    c.hostname (Spec.target c r) ∈ be.serverNames := by
  obtain ⟨a, w, ha, hm, _, _⟩ := forward_exact h
  refine ⟨?_, hm⟩
  unfold sentHost
  dsimp only
  by_cases hv : ∃ v, ("Host", v) ∈ Spec.configured be ov ∧ c.expand v ≠ []
  · obtain ⟨v, h1, h2⟩ := hv
    rw [setHost_some c _ _ hd h1 h2, if_neg h2]
    exact .inl ⟨v, h1, h2, rfl⟩
  · have hn : ∀ v, ("Host", v) ∈ Spec.configured be ov → c.expand v = [] := by
      intro v h1
      exact Classical.byContradiction fun h2 => hv ⟨v, h1, h2⟩
    have hne : r.host ≠ "" := hh.resolve_right hv
    rw [setHost_none c _ _ hn, if_neg (by simpa using hne)]
    refine .inr ⟨hn, ?_⟩
    unfold Spec.target
    rw [if_neg hne]

/-- C135 does not hold for a request without a Host header (HTTP/1.0, or an empty one): it is
accepted for the server name of the connection, but the backend server is told the name of the
connection pool, which is a hash. -/
theorem host_told_violated :
    ∃ (c : Ctx) (be : Be) (r : Req) (p : Str) (hs : Headers) (ck : List (String × String)) (k : Str),
      serve c be r = .forward p hs ck none k ∧ hs.values "Host" = ["a.example".toList] ∧
      c.serverName = "a.example" ∧
      sentHost c (Spec.configured be none) r k = c.hash "a.example;".toList ∧
      ¬ Spec.Tell c be none r (sentHost c (Spec.configured be none) r k) := by
  refine ⟨{ serverName := "a.example", hash := fun s => 'h' :: s },
    { serverNames := ["a.example"], addresses := ["10.0.0.1:80"] }, {}, _, _, _, _, rfl,
    by decide +kernel, rfl, by decide +kernel, ?_⟩
  rintro (⟨v, h, _⟩ | ⟨_, h⟩)
  · cases h
  · revert h; decide +kernel

/-- Non-vacuity: a request with a Host header, and one whose Host is configured. -/
example :
    let c : Ctx := { serverName := "a.example" }
    let be : Be := { serverNames := ["a.example"], addresses := ["10.0.0.1:80"] }
    (match serve c be { host := "a.example" } with
      | .forward _ _ _ ov k => sentHost c (Spec.configured be ov) { host := "a.example" } k = "a.example".toList
      | _ => False) ∧
    (match serve c { be with headers := [("Host", "internal")] } {} with
      | .forward _ _ _ ov k =>
        sentHost c (Spec.configured { be with headers := [("Host", "internal")] } ov) {} k = "internal".toList
      | _ => False) := by
  exact ⟨rfl, rfl⟩

end Verif.Http
