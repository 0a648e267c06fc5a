import Verif.Model.LogLines
import Verif.Props.Redirect
import Verif.Props.OcspHttp

/-
Clients do not write the log: each message that is logged about a request or a connection is one line
without control characters, whatever the client sends.

That holds where the URL is logged as it was sent or escaped again, and where names are quoted. It does
not hold where the decoded path is logged, for a QUIC connection with an unknown name, and for the
reason that a QUIC client gives for closing its connection: there any client can write any line.
-/
namespace Verif.LogLines

open Verif.Path (Str)
open Verif.Redirect (escape escape_range escapeChar keep_range upper_ok upperHex escape_cons escapeChar_range)
open Verif.OcspHttp (pathUnescape unhex unescape_cons unescape_esc)

/-! ## Specification -/

namespace Spec

/-- Nothing that ends a line or drives a terminal. -/
def Clean (s : Str) : Prop := ∀ c ∈ s, 32 ≤ c.toNat ∧ c.toNat ≠ 127

/-- Bytes. -/
def Bytes (s : Str) : Prop := ∀ c ∈ s, c.toNat < 256

/-- The lines of a text. -/
def lines : Str → List Str
  | [] => [[]]
  | c :: s => if c = '\n' then [] :: lines s else match lines s with
    | [] => [[c]]
    | l :: ls => (c :: l) :: ls

/-- What is known of a connection, apart from what the client says in its requests, has no control
characters: addresses, configured names, certificates that a configured CA has signed. -/
structure CleanConn (c : Conn) : Prop where
  cert : ∀ s ∈ c.cert, Clean s
  remote : Clean c.remote
  localAddr : ∀ s ∈ c.localAddr, Clean s
  serverName : Clean c.serverName
  mode : Clean c.mode
  proto : Clean c.proto
  upgrade : Clean c.upgrade
  internal : ∀ x ∈ c.internal, Clean x.1 ∧ Clean x.2

/-- A request as net/http accepts it, from a client whose email address has no control characters. The
target and the user agent may be anything else. -/
structure Accepted (r : Req) : Prop where
  conn : CleanConn r.conn
  email : ∀ s ∈ r.email, Clean s
  method : Clean r.method
  bytes : Bytes r.target
  url : parseTarget r.target = some r.url

/-- The messages that show the decoded path, whatever it is. -/
def ShowsPath : Site → Prop
  | .static _ => True
  | _ => False

/-- What the proxy adds is clean: the text of a status, and the path of a callback, which is a configured
one because the handler is found by its path. -/
def CleanSite (r : Req) : Site → Prop
  | .static code => Clean code
  | .forwarded code => Clean code
  | .sso code => Clean code
  | .callback => Clean r.url.path
  | _ => True

/-- The same for messages about connections. The names of `quicAccepted` and `quicClosed` are those of
backends, as are the names in `about`. -/
def CleanConnSite : ConnSite → Prop
  | .badHello remote _ err => Clean remote ∧ Clean err
  | .noBackend remote _ err => Clean remote ∧ Clean err
  | .refused remote _ err => Clean remote ∧ Clean err
  | .unauthorized remote _ _ err => Clean remote ∧ Clean err
  | .about tag c rest => Clean tag ∧ CleanConn c ∧ Clean rest
  | .quicNoBackend _ _ => True
  | .quicRefused summary remote _ err => Clean summary ∧ Clean remote ∧ Clean err
  | .quicAccepted summary remote name mode proto =>
    Clean summary ∧ Clean remote ∧ Clean name ∧ Clean mode ∧ Clean proto
  | .quicClosed summary remote name mode proto tag _ =>
    Clean summary ∧ Clean remote ∧ Clean name ∧ Clean mode ∧ Clean proto ∧ Clean tag

/-- The messages about QUIC connections that show what the client says as it is. -/
def ShowsText : ConnSite → Option Str
  | .quicNoBackend sni protos => some (sni ++ protos.flatten)
  | .quicClosed _ _ _ _ _ _ reason => some reason
  | _ => none

/-- The character that a letter after a backslash stands for in Go (spec, "Rune literals"). -/
def escaped : Char → Option Nat
  | 'a' => some 7
  | 'b' => some 8
  | 't' => some 9
  | 'n' => some 10
  | 'v' => some 11
  | 'f' => some 12
  | 'r' => some 13
  | '"' => some 34
  | '\\' => some 92
  | _ => none

/-- Reads a Go string after the opening quotation mark: its value, and what follows the closing one. -/
def readRest : Str → Option (Str × Str)
  | [] => none
  | [c] => if c = '"' then some ([], []) else none
  | c :: e :: r =>
    if c = '"' then some ([], e :: r)
    else if c = '\\' then
      if e = 'x' then
        match r with
        | a :: b :: r =>
          match unhex a, unhex b with
          | some x, some y => (readRest r).map fun p => (Char.ofNat (16 * x + y) :: p.1, p.2)
          | _, _ => none
        | _ => none
      else
        match escaped e with
        | some n => (readRest r).map fun p => (Char.ofNat n :: p.1, p.2)
        | none => none
    else (readRest (e :: r)).map fun p => (c :: p.1, p.2)

/-- Reads a Go string. -/
def readString : Str → Option (Str × Str)
  | c :: r => if c = '"' then readRest r else none
  | [] => none

end Spec

open Spec

/-! ## Pieces -/

theorem clean_nil : Clean [] := fun _ h => (nomatch h)

theorem clean_append {a b : Str} : Clean (a ++ b) ↔ Clean a ∧ Clean b := by
  unfold Clean
  constructor
  · intro h; exact ⟨fun c hc => h c (by simp [hc]), fun c hc => h c (by simp [hc])⟩
  · rintro ⟨h1, h2⟩ c hc
    rcases List.mem_append.mp hc with h | h
    · exact h1 c h
    · exact h2 c h

theorem clean_cons {c : Char} {s : Str} : Clean (c :: s) ↔ (32 ≤ c.toNat ∧ c.toNat ≠ 127) ∧ Clean s := by
  unfold Clean; simp

theorem clean_of {s : Str} (h : s.all (fun c => 32 ≤ c.toNat && c.toNat != 127) = true) : Clean s := by
  intro c hc
  have := List.all_eq_true.mp h c hc
  simpa using this

theorem not_ctl {c : Char} : ctl c = false ↔ 32 ≤ c.toNat ∧ c.toNat ≠ 127 := by
  unfold ctl; simp

theorem format_clean {l : List Piece} : Clean (format l) ↔ ∀ p ∈ l, Clean p.text := by
  unfold format
  induction l with
  | nil => simp [Clean]
  | cons p l ih => rw [List.flatMap_cons, clean_append, ih]; simp

theorem hexDigit_ok : ∀ n : Fin 16, 32 ≤ (hexDigit n).toNat ∧ (hexDigit n).toNat ≠ 127 := by decide +kernel

theorem quoteChar_aux {p : Prop} [Decidable p] {a b : Str} (ha : Clean a) (hb : Clean b) :
    Clean (if p then a else b) := by
  split
  · exact ha
  · exact hb

theorem quoteChar_clean (c : Char) : Clean (quoteChar c) := by
  unfold quoteChar
  split
  · rename_i h
    rcases h with rfl | rfl <;> exact clean_of (by decide)
  · iterate 7 refine quoteChar_aux (clean_of (by decide)) ?_
    split
    · rename_i h
      have hlt : c.toNat < 128 := by
        unfold ctl at h
        simp only [Bool.or_eq_true, decide_eq_true_eq] at h
        omega
      rw [clean_cons, clean_cons, clean_cons, clean_cons]
      exact ⟨by decide, by decide, hexDigit_ok ⟨c.toNat / 16, by omega⟩, hexDigit_ok ⟨c.toNat % 16, by omega⟩, clean_nil⟩
    · rename_i h
      rw [clean_cons]
      exact ⟨not_ctl.mp (by simpa using h), clean_nil⟩

/-- `%q` never writes a control character. -/
theorem quote_clean (s : Str) : Clean (quote s) := by
  unfold quote
  rw [clean_cons, clean_append]
  refine ⟨by decide, ?_, clean_of (by decide)⟩
  intro c hc
  obtain ⟨d, _, hd⟩ := List.mem_flatMap.mp hc
  exact quoteChar_clean d c hd

theorem readRest_plain {c : Char} {r : Str} (h1 : c ≠ '"') (h2 : c ≠ '\\') (hr : r ≠ []) :
    readRest (c :: r) = (readRest r).map fun p => (c :: p.1, p.2) := by
  cases r with
  | nil => exact absurd rfl hr
  | cons e r =>
    rw [readRest.eq_def]
    dsimp only
    rw [if_neg h1, if_neg h2]

theorem readRest_escaped {e : Char} {n : Nat} {r : Str} (hx : e ≠ 'x') (h : escaped e = some n) :
    readRest ('\\' :: e :: r) = (readRest r).map fun p => (Char.ofNat n :: p.1, p.2) := by
  rw [readRest.eq_def]
  dsimp only
  rw [if_neg (by decide), if_pos rfl, if_neg hx, h]

theorem ofNat_of_toNat {c : Char} {n : Nat} (h : c.toNat = n) : Char.ofNat n = c := by
  rw [← h]; simp

theorem hexDigit_unhex : ∀ n : Fin 16, unhex (hexDigit n) = some n.1 := by decide +kernel

theorem quoteChar_read (c : Char) {r : Str} (hr : r ≠ []) :
    readRest (quoteChar c ++ r) = (readRest r).map fun p => (c :: p.1, p.2) := by
  unfold quoteChar
  by_cases h : c = '"' ∨ c = '\\'
  · rw [if_pos h]
    rcases h with rfl | rfl
    · exact readRest_escaped (by decide) rfl
    · exact readRest_escaped (by decide) rfl
  rw [if_neg h]
  by_cases h7 : c.toNat = 7
  · rw [if_pos h7, ← ofNat_of_toNat h7]; exact readRest_escaped (by decide) rfl
  rw [if_neg h7]
  by_cases h8 : c.toNat = 8
  · rw [if_pos h8, ← ofNat_of_toNat h8]; exact readRest_escaped (by decide) rfl
  rw [if_neg h8]
  by_cases h12 : c.toNat = 12
  · rw [if_pos h12, ← ofNat_of_toNat h12]; exact readRest_escaped (by decide) rfl
  rw [if_neg h12]
  by_cases h10 : c.toNat = 10
  · rw [if_pos h10, ← ofNat_of_toNat h10]; exact readRest_escaped (by decide) rfl
  rw [if_neg h10]
  by_cases h13 : c.toNat = 13
  · rw [if_pos h13, ← ofNat_of_toNat h13]; exact readRest_escaped (by decide) rfl
  rw [if_neg h13]
  by_cases h9 : c.toNat = 9
  · rw [if_pos h9, ← ofNat_of_toNat h9]; exact readRest_escaped (by decide) rfl
  rw [if_neg h9]
  by_cases h11 : c.toNat = 11
  · rw [if_pos h11, ← ofNat_of_toNat h11]; exact readRest_escaped (by decide) rfl
  rw [if_neg h11]
  by_cases hc : ctl c = true
  · rw [if_pos hc]
    have hlt : c.toNat < 128 := by
      unfold ctl at hc
      simp only [Bool.or_eq_true, decide_eq_true_eq] at hc
      omega
    have a1 := hexDigit_unhex ⟨c.toNat / 16, by omega⟩
    have a2 := hexDigit_unhex ⟨c.toNat % 16, by omega⟩
    dsimp only at a1 a2
    show readRest ('\\' :: 'x' :: hexDigit (c.toNat / 16) :: hexDigit (c.toNat % 16) :: r) = _
    rw [readRest.eq_def]
    dsimp only
    rw [if_neg (by decide), if_pos rfl, if_pos rfl, a1, a2]
    dsimp only
    have : 16 * (c.toNat / 16) + c.toNat % 16 = c.toNat := by omega
    rw [this, ofNat_of_toNat rfl]
  · rw [if_neg hc]
    exact readRest_plain (fun e => h (.inl e)) (fun e => h (.inr e)) hr

/-- C138 (quoting). What `%q` writes can be read back, whatever follows it in the message: the quoted text
ends where it should, and nothing that a client puts into it can look like the rest of the message. -/
theorem quote_read (s rest : Str) : readString (quote s ++ rest) = some (s, rest) := by
  unfold quote readString
  rw [List.cons_append]
  dsimp only
  rw [if_pos rfl, List.append_assoc]
  induction s with
  | nil =>
    rw [List.flatMap_nil, List.nil_append, List.singleton_append, readRest.eq_def]
    cases rest with
    | nil => rfl
    | cons e r => dsimp only; rw [if_pos rfl]
  | cons c s ih =>
    rw [List.flatMap_cons, List.append_assoc, quoteChar_read c (by simp), ih]
    rfl

/-! ## URLs -/

theorem escape_clean {p : Str} (h : Bytes p) : Clean (escape p) := by
  intro c hc
  have := escape_range h c hc
  exact ⟨by omega, by omega⟩

theorem unhex_lt {c : Char} {n : Nat} (h : unhex c = some n) : n < 16 := by
  unfold unhex at h
  split at h
  · rename_i hr
    have h2 : c.toNat ≤ '9'.toNat := hr.2
    have e : '9'.toNat = 57 := rfl
    cases h; omega
  · split at h
    · rename_i hr
      have h2 : c.toNat ≤ 'f'.toNat := hr.2
      have e : 'f'.toNat = 102 := rfl
      cases h; omega
    · split at h
      · rename_i hr
        have h2 : c.toNat ≤ 'F'.toNat := hr.2
        have e : 'F'.toNat = 70 := rfl
        cases h; omega
      · exact (nomatch h)

theorem byte_ofNat {n : Nat} (h : n < 256) : (Char.ofNat n).toNat < 256 := by
  have : ∀ k : Fin 256, (Char.ofNat k).toNat < 256 := by decide +kernel
  exact this ⟨n, h⟩

theorem unescape_bytes_aux (n : Nat) : ∀ (s : Str) {p : Str}, s.length ≤ n → Bytes s →
    pathUnescape s = some p → Bytes p := by
  induction n with
  | zero =>
    intro s p hl _ h
    have : s = [] := List.length_eq_zero_iff.mp (by omega)
    subst this
    cases h; exact fun _ h => (nomatch h)
  | succ n ih =>
    intro s p hl hs h
    cases s with
    | nil => cases h; exact fun _ h => (nomatch h)
    | cons c t =>
      by_cases hc : c = '%'
      · subst hc
        match t with
        | [] => exact (nomatch h)
        | [_] => exact (nomatch h)
        | a :: b :: t =>
          cases ha : unhex a with
          | none => rw [pathUnescape, ha] at h; exact (nomatch h)
          | some x =>
            cases hb : unhex b with
            | none => rw [pathUnescape, ha, hb] at h; exact (nomatch h)
            | some y =>
              rw [unescape_esc ha hb, Option.map_eq_some_iff] at h
              obtain ⟨r, hr, rfl⟩ := h
              have h1 := unhex_lt ha
              have h2 := unhex_lt hb
              have ih := ih t (by simp only [List.length_cons] at hl; omega) (fun c hc => hs c (by simp [hc])) hr
              intro c hc
              rcases List.mem_cons.mp hc with rfl | hc
              · exact byte_ofNat (by omega)
              · exact ih c hc
      · rw [unescape_cons hc, Option.map_eq_some_iff] at h
        obtain ⟨r, hr, rfl⟩ := h
        have ih := ih t (by simp only [List.length_cons] at hl; omega) (fun c hc => hs c (by simp [hc])) hr
        intro x hx
        rcases List.mem_cons.mp hx with rfl | hx
        · exact hs x (by simp)
        · exact ih x hx

theorem unescape_bytes {s p : Str} (hs : Bytes s) (h : pathUnescape s = some p) : Bytes p :=
  unescape_bytes_aux s.length s (Nat.le_refl _) hs h

/-- A URL that net/http has accepted. -/
theorem parse_parts {t : Str} {u : Url} (hb : Bytes t) (h : parseTarget t = some u) :
    Clean t ∧ Bytes u.path ∧ pathUnescape (t.takeWhile (· ≠ '?')) = some u.path ∧
      (u.rawPath = [] ∨ u.rawPath = t.takeWhile (· ≠ '?')) ∧ Clean u.rawQuery := by
  unfold parseTarget at h
  split at h
  · exact (nomatch h)
  · rename_i hc
    have hclean : Clean t := by
      intro c hm
      refine not_ctl.mp ?_
      cases hx : ctl c with
      | false => rfl
      | true => exact absurd (List.any_eq_true.mpr ⟨c, hm, hx⟩) hc
    split at h
    · exact (nomatch h)
    · dsimp only at h
      split at h
      · exact (nomatch h)
      · rename_i path hp
        cases h
        refine ⟨hclean, ?_, hp, ?_, ?_⟩
        · exact unescape_bytes (fun c hc => hb c ((List.takeWhile_sublist _).mem hc)) hp
        · dsimp only; split
          · exact .inl rfl
          · exact .inr rfl
        · exact fun c hc => hclean c ((List.dropWhile_sublist _).mem (List.mem_of_mem_drop hc))

theorem url_clean {t : Str} {u : Url} (hb : Bytes t) (h : parseTarget t = some u) : Clean (urlString u) := by
  obtain ⟨h1, h2, _, h4, h5⟩ := parse_parts hb h
  unfold urlString
  rw [clean_append]
  constructor
  · unfold escapedPath
    split
    · rename_i hr
      rcases h4 with h4 | h4
      · exact absurd h4 hr.1
      · rw [h4]; exact fun c hc => h1 c ((List.takeWhile_sublist _).mem hc)
    · exact escape_clean h2
  · split
    · rw [clean_cons]; exact ⟨by decide, h5⟩
    · exact clean_nil

theorem unescape_escape (p : Str) (h2 : Bytes p) : pathUnescape (escape p) = some p := by
  induction p with
  | nil => rfl
  | cons c p ih =>
    have ih := ih fun x hx => h2 x (by simp [hx])
    have hc := h2 c (by simp)
    rw [escape_cons]
    unfold escapeChar
    split
    · rename_i hk
      rw [List.singleton_append, unescape_cons (keep_range hk).2.2.2.2.2, ih]
      rfl
    · have e1 : ∀ n : Fin 16, unhex (upperHex n) = some n.1 := by decide +kernel
      have a1 := e1 ⟨c.toNat / 16, by omega⟩
      have a2 := e1 ⟨c.toNat % 16, by omega⟩
      rw [List.cons_append, List.cons_append, List.cons_append, List.nil_append, unescape_esc a1 a2, ih]
      have : 16 * (c.toNat / 16) + c.toNat % 16 = c.toNat := by omega
      dsimp only
      rw [this, Option.map_some]
      simp

/-- The URL in the log is the one that was sent: decoding gives the path of the request, and the query is
the same. -/
theorem url_faithful {t : Str} {u : Url} (hb : Bytes t) (h : parseTarget t = some u) :
    pathUnescape (escapedPath u) = some u.path := by
  obtain ⟨_, h2, _, _, _⟩ := parse_parts hb h
  unfold escapedPath
  split
  · rename_i hr; exact hr.2.2
  · exact unescape_escape _ h2

/-! ## Requests -/

theorem join_clean {l : List Str} (h : ∀ s ∈ l, Clean s) : Clean (joinBar l) := by
  induction l with
  | nil => exact clean_nil
  | cons a t ih =>
    cases t with
    | nil => exact h a (by simp)
    | cons b t =>
      rw [joinBar]
      · rw [clean_append, clean_cons]
        exact ⟨h a (by simp), by decide, ih fun s hs => h s (by simp [hs])⟩
      · simp

theorem arrow_clean : Clean " ➔ ".toList := clean_of (by decide)

theorem conn_clean {c : Conn} (h : CleanConn c) {ids : List Str} (hi : ∀ s ∈ ids, Clean s) : Clean (connDesc c ids) := by
  unfold connDesc
  dsimp only
  simp only [clean_append]
  refine ⟨⟨⟨?_, h.remote⟩, ?_⟩, ?_⟩
  · split
    · exact clean_of (by decide)
    · rw [clean_cons, clean_append]
      refine ⟨by decide, join_clean ?_, clean_of (by decide)⟩
      intro s hs
      rcases List.mem_append.mp hs with hs | hs
      · exact h.cert s (by simpa using hs)
      · exact hi s hs
  · split
    · exact clean_nil
    · rename_i a ha
      rw [clean_append]; exact ⟨arrow_clean, h.localAddr a (by simp [ha])⟩
  · split
    · exact clean_nil
    · simp only [clean_append, clean_cons]
      refine ⟨⟨⟨⟨⟨arrow_clean, h.serverName⟩, by decide, h.mode⟩, ?_⟩, ?_⟩, ?_⟩
      · split
        · exact clean_nil
        · rw [clean_cons]; exact ⟨by decide, h.proto⟩
      · split
        · exact clean_nil
        · rw [clean_cons]; exact ⟨by decide, h.upgrade⟩
      · split
        · exact clean_nil
        · rename_i a b hab
          have := h.internal (a, b) (by simp [hab])
          simp only [clean_append, clean_cons]
          exact ⟨⟨⟨by decide, this.1⟩, arrow_clean⟩, this.2⟩

theorem req_clean {r : Req} (h : Accepted r) : Clean (reqDesc r) :=
  conn_clean h.conn fun s hs => h.email s (by simpa using hs)

/-- A message is clean exactly if the piece in its middle is. -/
theorem message_clean {s : Site} {r : Req} (h : Accepted r) (hs : CleanSite r s) :
    Clean (reqMessage s r) ↔
      Clean (match s with
        | .static _ => r.url.path
        | .callback => r.url.path
        | .sso _ => r.target
        | _ => urlString r.url) := by
  have h1 := req_clean h
  have h2 := h.method
  have h3 := quote_clean (userAgent r.userAgent)
  have c0 := arrow_clean
  have c1 : Clean " (".toList := clean_of (by decide)
  have c2 : Clean ")".toList := clean_of (by decide)
  have c3 : Clean [' '] := clean_of (by decide)
  have c4 : Clean "ERR ".toList := clean_of (by decide)
  have c5 : Clean "REQ ".toList := clean_of (by decide)
  have c6 : Clean "PRX ".toList := clean_of (by decide)
  have c7 : Clean " ➔ Aborted".toList := clean_of (by decide)
  have c8 : Clean " ➔ status:".toList := clean_of (by decide)
  have c9 : Clean " ➔ status:404".toList := clean_of (by decide)
  have c10 : Clean " (SSO)".toList := clean_of (by decide)
  have c11 : Clean " (SSO callback)".toList := clean_of (by decide)
  cases s <;> simp only [CleanSite] at hs <;> dsimp only [reqMessage] <;> rw [format_clean] <;>
    simp only [List.cons_append, List.nil_append, List.mem_cons, List.not_mem_nil, or_false, forall_eq_or_imp,
      forall_eq, Piece.text, h1, h2, h3, hs, c0, c1, c2, c3, c4, c5, c6, c7, c8, c9, c10, c11, and_true, true_and]

/-- C138, for the messages that do not show the decoded path: whatever the client sends, the message is
one line without control characters. Missing: the others, and those about QUIC connections below. -/
theorem request_line_partial (s : Site) (r : Req) (h : Accepted r) (hs : CleanSite r s) (hp : ¬ ShowsPath s) :
    Clean (reqMessage s r) := by
  rw [message_clean h hs]
  have hu := url_clean h.bytes h.url
  cases s <;> first | exact hu | exact (parse_parts h.bytes h.url).1 | exact absurd trivial hp | exact hs

/-- The messages that show the decoded path are one line exactly if it has no control characters. -/
theorem path_line_iff (s : Site) (r : Req) (h : Accepted r) (hs : CleanSite r s) (hp : ShowsPath s) :
    Clean (reqMessage s r) ↔ Clean r.url.path := by
  rw [message_clean h hs]
  cases s <;> first | exact Iff.rfl | exact absurd hp id

/-- A request with a user agent and a path that would be several lines. -/
def exConn : Conn where
  cert := none
  remote := "tcp:192.0.2.1:1234".toList
  localAddr := none
  serverName := "example.com".toList
  mode := "LOCAL".toList
  proto := "h2".toList
  upgrade := []
  internal := none

def exReq : Req where
  conn := exConn
  email := some "bob@example.com".toList
  method := "POST".toList
  target := "/a%0aREQ?b=%0a".toList
  url := ⟨"/a\nREQ".toList, "/a%0aREQ".toList, false, "b=%0a".toList⟩
  userAgent := "x\ny".toList

theorem exConn_clean : CleanConn exConn where
  cert := fun _ h => (nomatch h)
  remote := clean_of (by decide +kernel)
  localAddr := fun _ h => (nomatch h)
  serverName := clean_of (by decide +kernel)
  mode := clean_of (by decide +kernel)
  proto := clean_of (by decide +kernel)
  upgrade := clean_nil
  internal := fun _ h => (nomatch h)

theorem exReq_accepted : Accepted exReq where
  conn := exConn_clean
  email := by
    intro s h
    obtain rfl : "bob@example.com".toList = s := by simpa [exReq] using h
    exact clean_of (by decide +kernel)
  method := clean_of (by decide +kernel)
  bytes := by unfold Bytes; decide +kernel
  url := by decide +kernel

example : Clean (reqMessage .handler exReq) := request_line_partial _ _ exReq_accepted trivial id

example : String.ofList (reqMessage .handler exReq) =
    "REQ [bob@example.com] tcp:192.0.2.1:1234 ➔ example.com|LOCAL:h2 ➔ POST /a%0aREQ?b=%0a (\"x\\ny\")" := by
  decide +kernel

example : Clean (reqMessage (.sso "403".toList) exReq) :=
  request_line_partial _ _ exReq_accepted (clean_of (by decide)) id

example : ¬ Clean (reqMessage (.static "405".toList) exReq) := by
  rw [path_line_iff (.static "405".toList) _ exReq_accepted (clean_of (by decide)) trivial]
  unfold Clean
  decide +kernel

/-! ## Forged lines -/

theorem lines_ne_nil (s : Str) : lines s ≠ [] := by
  cases s with
  | nil => simp [lines]
  | cons c s =>
    rw [lines]
    split
    · simp
    · split <;> simp

theorem line_first {t b : Str} (ht : '\n' ∉ t) : (lines (t ++ '\n' :: b)).head? = some t := by
  induction t with
  | nil => rw [List.nil_append, lines, if_pos rfl]; rfl
  | cons c t ih =>
    have ih := ih fun h => ht (by simp [h])
    rw [List.cons_append, lines, if_neg (by rintro rfl; exact ht (by simp))]
    split
    · rename_i he; rw [he] at ih; exact (nomatch ih)
    · rename_i l ls he
      rw [he] at ih
      simp only [List.head?_cons, Option.some.injEq] at ih ⊢
      rw [ih]

theorem line_later (a : Str) {t b : Str} (ht : '\n' ∉ t) : t ∈ (lines (a ++ '\n' :: (t ++ '\n' :: b))).tail := by
  induction a with
  | nil =>
    rw [List.nil_append, lines, if_pos rfl, List.tail_cons]
    exact List.mem_of_mem_head? (line_first ht)
  | cons c a ih =>
    rw [List.cons_append, lines]
    split
    · exact List.mem_of_mem_tail ih
    · split
      · rename_i he; exact absurd he (lines_ne_nil _)
      · rename_i l ls he
        rw [he] at ih
        exact ih

/-- The target that makes the path what one likes. -/
def forge (t : Str) : Str := '/' :: escape ('\n' :: (t ++ ['\n']))

theorem forge_parse {t : Str} (ht : Bytes t) :
    Bytes (forge t) ∧ ∃ u, parseTarget (forge t) = some u ∧ u.path = '/' :: '\n' :: (t ++ ['\n']) := by
  have hb : Bytes ('\n' :: (t ++ ['\n'])) := by
    intro c hc
    simp only [List.mem_cons, List.mem_append, List.not_mem_nil, or_false] at hc
    rcases hc with rfl | hc | rfl
    · decide
    · exact ht c hc
    · decide
  have hr := escape_range hb
  have hbytes : Bytes (forge t) := by
    intro c hc
    rcases List.mem_cons.mp hc with rfl | hc
    · decide
    · have := hr c hc; omega
  refine ⟨hbytes, ?_⟩
  have hq : (forge t).takeWhile (· ≠ '?') = forge t := by
    have : ∀ l : Str, (∀ c ∈ l, c ≠ '?') → l.takeWhile (· ≠ '?') = l := by
      intro l hl
      induction l with
      | nil => rfl
      | cons c l ih =>
        rw [List.takeWhile_cons, if_pos (by simpa using hl c (by simp)), ih fun c hc => hl c (by simp [hc])]
    refine this _ fun c hc => ?_
    rcases List.mem_cons.mp hc with rfl | hc
    · decide
    · exact (hr c hc).2.2.2.1
  have hun : pathUnescape (forge t) = some ('/' :: '\n' :: (t ++ ['\n'])) := by
    have := unescape_escape ('/' :: '\n' :: (t ++ ['\n'])) (by
      intro c hc
      rcases List.mem_cons.mp hc with rfl | hc
      · decide
      · exact hb c hc)
    rw [escape_cons] at this
    exact this
  unfold parseTarget
  rw [if_neg, if_neg (by simp [forge])]
  · dsimp only
    rw [hq, hun]
    exact ⟨_, rfl, rfl⟩
  · rw [List.any_eq_true]
    rintro ⟨c, hc, hx⟩
    rcases List.mem_cons.mp hc with rfl | hc
    · exact absurd hx (by decide)
    · have := hr c hc
      rw [not_ctl.mpr ⟨by omega, by omega⟩] at hx
      exact (nomatch hx)

theorem format_has {l : List Piece} {x : Str} (h : Piece.plain x ∈ l) : ∃ a b, format l = a ++ x ++ b := by
  obtain ⟨l1, l2, rfl⟩ := List.append_of_mem h
  exact ⟨format l1, format l2, by simp [format, Piece.text]⟩

theorem forged {msg t : Str} (h : ∃ a b, msg = a ++ ('\n' :: (t ++ ['\n'])) ++ b) (hn : '\n' ∉ t) (stamp : Str) :
    t ∈ (lines (record stamp msg)).tail := by
  obtain ⟨a, b, rfl⟩ := h
  obtain ⟨e, he⟩ : ∃ e, record stamp (a ++ ('\n' :: (t ++ ['\n'])) ++ b) =
      stamp ++ (a ++ ('\n' :: (t ++ ['\n'])) ++ b) ++ e := ⟨_, rfl⟩
  rw [he]
  have := line_later (stamp ++ a) (t := t) (b := b ++ e) hn
  simpa [List.append_assoc] using this

/-- C138 (violated). Whatever the text, there is a request, accepted by net/http, whose message has that
text as a line of its own, where the decoded path is logged. -/
theorem request_forged_violated (s : Site) (hs : ShowsPath s) (r : Req) (t : Str) (ht : Bytes t) (hn : '\n' ∉ t)
    (stamp : Str) :
    ∃ u, parseTarget (forge t) = some u ∧
      t ∈ (lines (record stamp (reqMessage s { r with target := forge t, url := u }))).tail := by
  obtain ⟨_, u, hu, hp⟩ := forge_parse ht
  refine ⟨u, hu, forged ?_ hn stamp⟩
  cases s with
  | static code =>
    dsimp only [reqMessage]
    obtain ⟨a, b, h⟩ := format_has (l := [Piece.fixed "REQ ".toList,
      .plain (reqDesc { r with target := forge t, url := u }), .fixed " ➔ ".toList, .plain r.method,
      .fixed [' '], .plain u.path] ++ [.fixed " ➔ status:".toList, .fixed code] ++
      [Piece.fixed " (".toList, Piece.quoted (userAgent r.userAgent), Piece.fixed ")".toList]) (x := u.path) (by simp)
    refine ⟨a ++ ['/'], b, ?_⟩
    rw [h, hp]
    simp
  | _ => exact absurd hs id

/-- C138 (violated). No login is needed, and no special path: any request but GET and HEAD will do where
static files are served. -/
theorem static_forged_violated (c : Http.Ctx) (root pre : Str) (hroot : root ≠ []) (method : String)
    (hm : method ≠ "GET") (hm' : method ≠ "HEAD") (r : Req) (t : Str) (ht : Bytes t) (hn : '\n' ∉ t) (stamp : Str) :
    ∃ u, parseTarget (forge t) = some u ∧
      t ∈ (lines (record stamp (reqMessage (staticSite method (Http.serveStatic c root pre method u.path).1)
        { r with target := forge t, url := u }))).tail := by
  obtain ⟨_, u, hu, hp⟩ := forge_parse ht
  have : (Http.serveStatic c root pre method u.path).1 = .methodNotAllowed := by
    unfold Http.serveStatic
    rw [if_neg hroot, if_pos ⟨hm, hm'⟩]
  obtain ⟨v, hv, h⟩ := request_forged_violated (.static "405".toList) trivial r t ht hn stamp
  obtain rfl : v = u := by rw [hu] at hv; exact (Option.some.inj hv).symm
  exact ⟨v, hv, by rw [this]; exact h⟩

example : lines (record "13:00 ".toList (reqMessage (.static "405".toList)
      { exReq with target := forge "13:01 REQ [eve] ".toList,
                   url := ⟨"/\n13:01 REQ [eve] \n".toList, [], false, []⟩ })) =
    ["13:00 REQ [bob@example.com] tcp:192.0.2.1:1234 ➔ example.com|LOCAL:h2 ➔ POST /".toList,
     "13:01 REQ [eve] ".toList, " ➔ status:405 (\"x\\ny\")".toList, []] := by
  decide +kernel

example : String.ofList (forge "13:01 REQ [eve] ".toList) = "/%0A13:01%20REQ%20%5Beve%5D%20%0A" := by decide +kernel

/-! ## Connections -/

/-- C138, for connections: whatever name and protocols the client asks for, and whatever it says, the
message is one line without control characters. Missing: the two messages about QUIC connections that
show the client's text as it is. -/
theorem conn_line_partial (s : ConnSite) (h : CleanConnSite s) (hs : ShowsText s = none) : Clean (connMessage s) := by
  have c0 := arrow_clean
  have c1 : Clean "BAD [-] ".toList := clean_of (by decide)
  have c2 : Clean ": invalid ClientHello: ".toList := clean_of (by decide)
  have c3 : Clean ": ".toList := clean_of (by decide)
  have c4 : Clean " ".toList := clean_of (by decide)
  have c5 : Clean " Authorize(".toList := clean_of (by decide)
  have c6 : Clean "): ".toList := clean_of (by decide)
  have c7 : Clean "BAD [".toList := clean_of (by decide)
  have c8 : Clean "] ".toList := clean_of (by decide)
  have c9 : Clean "QUC [".toList := clean_of (by decide)
  have c10 : Clean ['|'] := clean_of (by decide)
  have c11 : Clean [':'] := clean_of (by decide)
  have c12 : Clean [' '] := clean_of (by decide)
  cases s with
  | quicNoBackend _ _ => exact (nomatch hs)
  | quicClosed _ _ _ _ _ _ _ => exact (nomatch hs)
  | about tag c rest =>
    have hd : Clean (connDesc c []) := conn_clean h.2.1 fun _ hx => (nomatch hx)
    simp only [CleanConnSite] at h
    dsimp only [connMessage]
    rw [format_clean]
    simp only [List.mem_cons, List.not_mem_nil, or_false, forall_eq_or_imp, forall_eq, Piece.text, h, c12, hd, and_true]
  | _ =>
    simp only [CleanConnSite] at h
    dsimp only [connMessage]
    rw [format_clean]
    simp only [List.mem_cons, List.not_mem_nil, or_false, forall_eq_or_imp, forall_eq, Piece.text, h, quote_clean,
      c0, c1, c2, c3, c4, c5, c6, c7, c8, c9, c10, c11, and_true, true_and]

/-- The name that the client asked for, and what was wrong, in messages about connections that are refused. -/
def Spec.asked : ConnSite → Option (Str × Str)
  | .badHello _ sni err => some (sni, ": invalid ClientHello: ".toList ++ err)
  | .noBackend _ sni err => some (sni, ": ".toList ++ err)
  | .refused _ name err => some (name, " ".toList ++ err)
  | .unauthorized _ name summary err => some (name, " Authorize(".toList ++ quote summary ++ "): ".toList ++ err)
  | .quicRefused _ _ sni err => some (sni, ": ".toList ++ err)
  | _ => none

/-- The beginning of these messages, without anything the client chooses but its address and certificate. -/
def Spec.opening : ConnSite → Str
  | .badHello remote _ _ | .noBackend remote _ _ | .refused remote _ _ | .unauthorized remote _ _ _ =>
    "BAD [-] ".toList ++ remote ++ " ➔ ".toList
  | .quicRefused summary remote _ _ => "BAD [".toList ++ summary ++ "] ".toList ++ remote ++ " ➔ ".toList
  | _ => []

/-- C138 (names). The message about a refused connection tells which name was asked for and why it was
refused, whatever characters the name has: after the beginning, the name can be read back, and so can the
rest. -/
theorem name_read (s : ConnSite) (name rest : Str) (h : asked s = some (name, rest)) :
    ∃ tail, connMessage s = opening s ++ tail ∧ readString tail = some (name, rest) := by
  refine ⟨quote name ++ rest, ?_, quote_read name rest⟩
  have hc : ∀ (p : Piece) l, format (p :: l) = p.text ++ format l := fun _ _ => List.flatMap_cons ..
  have hn : format [] = [] := rfl
  cases s with
  | badHello remote sni err =>
    obtain ⟨rfl, rfl⟩ := Prod.mk.inj (Option.some.inj h)
    unfold connMessage opening
    dsimp only
    simp only [hc, hn, Piece.text, List.append_assoc, List.append_nil]
  | noBackend remote sni err =>
    obtain ⟨rfl, rfl⟩ := Prod.mk.inj (Option.some.inj h)
    unfold connMessage opening
    dsimp only
    simp only [hc, hn, Piece.text, List.append_assoc, List.append_nil]
  | refused remote sni err =>
    obtain ⟨rfl, rfl⟩ := Prod.mk.inj (Option.some.inj h)
    unfold connMessage opening
    dsimp only
    simp only [hc, hn, Piece.text, List.append_assoc, List.append_nil]
  | unauthorized remote sni summary err =>
    obtain ⟨rfl, rfl⟩ := Prod.mk.inj (Option.some.inj h)
    unfold connMessage opening
    dsimp only
    simp only [hc, hn, Piece.text, List.append_assoc, List.append_nil]
  | quicRefused summary remote sni err =>
    obtain ⟨rfl, rfl⟩ := Prod.mk.inj (Option.some.inj h)
    unfold connMessage opening
    dsimp only
    simp only [hc, hn, Piece.text, List.append_assoc, List.append_nil]
  | _ => exact (nomatch h)

example : asked (.noBackend "tcp:192.0.2.1:1".toList "a\": unexpected SNI\n".toList "unexpected SNI".toList) =
    some ("a\": unexpected SNI\n".toList, ": unexpected SNI".toList) := by decide +kernel

/-- C138 (user agents). A message about a request ends with the user agent, which can be read back if it is
short enough; nothing before it depends on it. -/
theorem agent_read (s : Site) (r : Req) :
    ∃ start, ∀ ua, ∃ tail, reqMessage s { r with userAgent := ua } = start ++ tail ∧
      readString tail = some (userAgent ua, ")".toList) ∧ (ua.length ≤ 200 → userAgent ua = ua) := by
  have key : ∃ l : List Piece, ∀ ua, reqMessage s { r with userAgent := ua } =
      format (l ++ [Piece.fixed " (".toList, Piece.quoted (userAgent ua), Piece.fixed ")".toList]) := by
    let start (tag : String) (what : Str) := [Piece.fixed tag.toList, .plain (reqDesc r), .fixed " ➔ ".toList,
      .plain r.method, .fixed [' '], .plain what]
    refine ⟨match s with
      | .aborted => start "ERR " (urlString r.url) ++ [.fixed " ➔ Aborted".toList]
      | .static code => start "REQ " r.url.path ++ [.fixed " ➔ status:".toList, .fixed code]
      | .notFound => start "REQ " (urlString r.url) ++ [.fixed " ➔ status:404".toList]
      | .forwarded code => start "PRX " (urlString r.url) ++ [.fixed " ➔ status:".toList, .fixed code]
      | .sso code => start "REQ " r.target ++ [.fixed " ➔ status:".toList, .fixed code, .fixed " (SSO)".toList]
      | .handler => start "REQ " (urlString r.url)
      | .callback => start "REQ " r.url.path ++ [.fixed " (SSO callback)".toList], fun ua => ?_⟩
    cases s <;> rfl
  obtain ⟨l, hl⟩ := key
  refine ⟨format (l ++ [Piece.fixed " (".toList]), fun ua => ⟨quote (userAgent ua) ++ ")".toList, ?_, quote_read _ _, ?_⟩⟩
  · rw [hl]
    simp only [format, Piece.text, List.append_assoc, List.flatMap_cons, List.flatMap_nil, List.flatMap_append,
      List.append_nil]
  · intro h
    unfold userAgent
    rw [if_neg (by omega)]

example : readString "\"a\\\") \\x01\\n\")".toList = some ("a\") \x01\n".toList, ")".toList) := by decide +kernel

namespace Spec

/-- The parts of a text between bars; `w` is the part that has begun. -/
def barsFrom (w : Str) : Str → List Str
  | [] => [w]
  | c :: s => if c = '|' then w :: barsFrom [] s else barsFrom (w ++ [c]) s

/-- Who a description names: what is in the brackets, nobody if that is a hyphen. -/
def who (l : Str) : List Str :=
  let w := (l.drop 1).takeWhile (· ≠ ']')
  if w = ['-'] then [] else barsFrom [] w

/-- The address that it names: what follows, up to a blank. -/
def peer (l : Str) : Str := ((l.dropWhile (· ≠ ']')).drop 2).takeWhile (· ≠ ' ')

end Spec

theorem barsFrom_word (w v s : Str) (h : '|' ∉ v) : Spec.barsFrom w (v ++ s) = Spec.barsFrom (w ++ v) s := by
  induction v generalizing w with
  | nil => simp
  | cons c v ih =>
    rw [List.mem_cons, not_or] at h
    rw [List.cons_append, Spec.barsFrom, if_neg (fun e => h.1 e.symm), ih _ h.2]
    simp

theorem bars_join (l : List Str) (hne : l ≠ []) (h : ∀ s ∈ l, '|' ∉ s) : Spec.barsFrom [] (joinBar l) = l := by
  induction l with
  | nil => exact absurd rfl hne
  | cons a t ih =>
    have ha := h a (by simp)
    cases t with
    | nil =>
      have := barsFrom_word [] a [] ha
      rw [List.append_nil] at this
      show Spec.barsFrom [] a = [a]
      rw [this]; rfl
    | cons b t =>
      have ih := ih (by simp) fun s hs => h s (by simp [hs])
      show Spec.barsFrom [] (a ++ '|' :: joinBar (b :: t)) = _
      rw [barsFrom_word [] a _ ha, Spec.barsFrom, if_pos rfl, ih]
      rfl

theorem join_mem {l : List Str} {c : Char} (h : c ∈ joinBar l) : c = '|' ∨ ∃ s ∈ l, c ∈ s := by
  induction l with
  | nil => cases h
  | cons a t ih =>
    cases t with
    | nil => exact .inr ⟨a, by simp, h⟩
    | cons b t =>
      rcases List.mem_append.mp (show c ∈ a ++ '|' :: joinBar (b :: t) from h) with h | h
      · exact .inr ⟨a, by simp, h⟩
      · rcases List.mem_cons.mp h with h | h
        · exact .inl h
        · rcases ih h with h | ⟨s, hs, hc⟩
          · exact .inl h
          · exact .inr ⟨s, List.mem_cons_of_mem _ hs, hc⟩

theorem takeWhile_stop {p : Char → Bool} {a b : Str} {c : Char} (ha : ∀ x ∈ a, p x = true) (hc : p c = false) :
    (a ++ c :: b).takeWhile p = a ∧ (a ++ c :: b).dropWhile p = c :: b := by
  induction a with
  | nil => simp [hc]
  | cons x a ih =>
    have := ih fun y hy => ha y (by simp [hy])
    simp [ha x (by simp), this.1, this.2]

theorem takeWhile_all {p : Char → Bool} {a : Str} (ha : ∀ x ∈ a, p x = true) : a.takeWhile p = a := by
  induction a with
  | nil => rfl
  | cons x a ih => rw [List.takeWhile_cons, if_pos (ha x (by simp)), ih fun y hy => ha y (by simp [hy])]

/-- C138 (attribution). The description of a connection or a request names exactly the identities of the
client, in order, nobody if there are none, and the address of the peer: they can be read from it, whatever
else it says. -/
theorem attributed (c : Conn) (ids : List Str) (hid : ∀ s ∈ c.cert.toList ++ ids, ']' ∉ s ∧ '|' ∉ s)
    (hbar : c.cert.toList ++ ids ≠ [['-']]) (hr : ' ' ∉ c.remote) :
    Spec.who (connDesc c ids) = c.cert.toList ++ ids ∧ Spec.peer (connDesc c ids) = c.remote := by
  have key : ∃ w rest, connDesc c ids = '[' :: (w ++ ']' :: ' ' :: (c.remote ++ rest)) ∧ ']' ∉ w ∧
      (rest = [] ∨ ∃ t, rest = ' ' :: t) ∧
      (if w = ['-'] then [] else Spec.barsFrom [] w) = c.cert.toList ++ ids := by
    have arrow : " ➔ ".toList = ' ' :: "➔ ".toList := by decide +kernel
    have tail : ∃ rest, (rest = [] ∨ ∃ t, rest = ' ' :: t) ∧ connDesc c ids =
        (if c.cert.toList ++ ids = [] then "[-] ".toList else '[' :: (joinBar (c.cert.toList ++ ids) ++ "] ".toList)) ++
          (c.remote ++ rest) := by
      unfold connDesc
      dsimp only
      rw [arrow, List.append_assoc, List.append_assoc]
      refine ⟨_, ?_, rfl⟩
      cases c.localAddr with
      | some a => exact .inr ⟨_, rfl⟩
      | none =>
        by_cases h : c.serverName = []
        · rw [if_pos h]; exact .inl rfl
        · rw [if_neg h]; exact .inr ⟨_, rfl⟩
    obtain ⟨rest, hrest, e⟩ := tail
    rw [e]
    split
    · rename_i h0
      exact ⟨['-'], rest, rfl, by decide +kernel, hrest, by rw [if_pos rfl, h0]⟩
    · rename_i h0
      generalize c.cert.toList ++ ids = l at *
      have hj : joinBar l ≠ ['-'] := by
        intro hj
        have := bars_join l h0 fun s hs => (hid s hs).2
        rw [hj] at this
        exact hbar (this.symm.trans (by decide +kernel))
      refine ⟨joinBar l, rest, ?_, ?_, hrest, by rw [if_neg hj, bars_join l h0 fun s hs => (hid s hs).2]⟩
      · have : "] ".toList = [']', ' '] := by decide +kernel
        rw [this]; simp
      · intro hm
        rcases join_mem hm with h | ⟨s, hs, hc⟩
        · exact absurd h (by decide +kernel)
        · exact (hid s hs).1 hc
  obtain ⟨w, rest, e, hw, hrest, hwho⟩ := key
  have hall : ∀ x ∈ w, (decide (x ≠ ']')) = true := fun x hx => decide_eq_true fun h => hw (h ▸ hx)
  have ht := takeWhile_stop (p := fun x => decide (x ≠ ']')) (a := w) (b := ' ' :: (c.remote ++ rest)) (c := ']') hall (by simp)
  refine ⟨?_, ?_⟩
  · unfold Spec.who
    dsimp only
    rw [e, List.drop_succ_cons, List.drop_zero, ht.1]
    exact hwho
  · unfold Spec.peer
    have ht2 := takeWhile_stop (p := fun x => decide (x ≠ ']')) (a := '[' :: w) (b := ' ' :: (c.remote ++ rest)) (c := ']')
      (by
        intro x hx
        rcases List.mem_cons.mp hx with rfl | hx
        · decide +kernel
        · exact hall x hx) (by simp)
    rw [List.cons_append] at ht2
    rw [e, ht2.2]
    show (c.remote ++ rest).takeWhile _ = _
    rcases hrest with rfl | ⟨t, rfl⟩
    · rw [List.append_nil]
      exact takeWhile_all (p := fun x => decide (x ≠ ' ')) fun x hx => decide_eq_true fun h => hr (h ▸ hx)
    · exact (takeWhile_stop (p := fun x => decide (x ≠ ' ')) (fun x hx => decide_eq_true fun h => hr (h ▸ hx)) (by simp)).1

/-- C138 (length). A user agent takes at most 200 bytes of a line before quoting; a short one is not changed, and of
a long one the beginning is kept. -/
theorem agent_short (ua : Str) :
    (userAgent ua).length ≤ 200 ∧ (ua.length ≤ 200 → userAgent ua = ua) ∧
    (200 < ua.length → (userAgent ua).take 197 = ua.take 197 ∧ (userAgent ua).drop 197 = "...".toList) := by
  have h3 : "...".toList.length = 3 := by decide +kernel
  unfold userAgent
  split
  · rename_i h
    have hl : (ua.take 197).length = 197 := by rw [List.length_take]; omega
    refine ⟨by rw [List.length_append, hl, h3]; omega, fun h' => by omega, fun _ => ⟨?_, ?_⟩⟩
    · rw [List.take_append_of_le_length (by omega), List.take_of_length_le (by omega)]
    · rw [List.drop_append_of_le_length (by omega), List.drop_of_length_le (by omega)]; rfl
  · rename_i h
    exact ⟨by omega, fun _ => rfl, fun h' => by omega⟩

example : Spec.who (connDesc { exConn with cert := some "CN=a".toList } ["b@example.com".toList]) =
    ["CN=a".toList, "b@example.com".toList] := by decide +kernel

example : (userAgent (List.replicate 201 'x')).length = 200 := by decide +kernel

theorem list_clean {l : List Str} : Clean (listText l) ↔ Clean l.flatten := by
  have key : Clean (l.intersperse [' ']).flatten ↔ Clean l.flatten := by
    induction l with
    | nil => exact Iff.rfl
    | cons a l ih =>
      cases l with
      | nil => exact Iff.rfl
      | cons b l =>
        rw [List.intersperse_cons₂, List.flatten_cons, List.flatten_cons, clean_append, clean_append, ih,
          List.flatten_cons (l := a), clean_append]
        have : Clean [' '] := clean_of (by decide)
        simp only [this, true_and]
  unfold listText
  rw [clean_cons, clean_append, key]
  have : Clean [']'] := clean_of (by decide)
  simp [this]

/-- The other two are one line exactly if what the client says is. -/
theorem conn_text_iff (s : ConnSite) (x : Str) (h : CleanConnSite s) (hs : ShowsText s = some x) :
    Clean (connMessage s) ↔ Clean x := by
  cases s with
  | quicNoBackend sni protos =>
    cases hs
    have c1 : Clean "ERR QUIC connection ".toList := clean_of (by decide)
    have c12 : Clean [' '] := clean_of (by decide)
    dsimp only [connMessage]
    rw [format_clean, clean_append]
    simp only [List.mem_cons, List.not_mem_nil, or_false, forall_eq_or_imp, forall_eq, Piece.text, list_clean, c1, c12,
      true_and]
  | quicClosed summary remote name mode proto tag reason =>
    cases hs
    simp only [CleanConnSite] at h
    have c0 := arrow_clean
    have c1 : Clean "ERR [".toList := clean_of (by decide)
    have c8 : Clean "] ".toList := clean_of (by decide)
    have c10 : Clean ['|'] := clean_of (by decide)
    have c11 : Clean [':'] := clean_of (by decide)
    have c12 : Clean [' '] := clean_of (by decide)
    have c13 : Clean ": Application error (remote): ".toList := clean_of (by decide)
    dsimp only [connMessage]
    rw [format_clean]
    simp only [List.mem_cons, List.not_mem_nil, or_false, forall_eq_or_imp, forall_eq, Piece.text, h, c0, c1, c8, c10,
      c11, c12, c13, true_and]
  | _ => exact (nomatch hs)

/-- C138 (violated). A QUIC client that asks for a name without a backend can write any line, and nothing
of it is checked before. -/
theorem quic_name_forged_violated (protos : List Str) (t : Str) (hn : '\n' ∉ t) (stamp : Str) :
    t ∈ (lines (record stamp (connMessage (.quicNoBackend ('\n' :: (t ++ ['\n'])) protos)))).tail := by
  refine forged ?_ hn stamp
  exact format_has (l := [.fixed "ERR QUIC connection ".toList, .plain ('\n' :: (t ++ ['\n'])), .fixed [' '],
    .plain (listText protos)]) (by simp)

/-- C138 (violated). So can one that closes its connection. -/
theorem quic_reason_forged_violated (summary remote name mode proto tag t : Str) (hn : '\n' ∉ t) (stamp : Str) :
    t ∈ (lines (record stamp
      (connMessage (.quicClosed summary remote name mode proto tag ('\n' :: (t ++ ['\n'])))))).tail := by
  refine forged ?_ hn stamp
  exact format_has (l := [.fixed "ERR [".toList, .plain summary, .fixed "] ".toList, .fixed remote,
      .fixed " ➔ ".toList, .plain name,
      .fixed ['|'], .plain mode, .fixed [':'], .plain proto, .fixed [' '], .fixed tag,
      .fixed ": Application error (remote): ".toList, .plain ('\n' :: (t ++ ['\n']))]) (by simp)

example : Clean (connMessage (.noBackend "tcp:192.0.2.1:1234".toList "a\nb".toList "unexpected SNI".toList)) :=
  conn_line_partial _ ⟨clean_of (by decide +kernel), clean_of (by decide +kernel)⟩ rfl

example : Clean (connMessage (.about "CON".toList exConn [])) :=
  conn_line_partial _ ⟨clean_of (by decide), exConn_clean, clean_nil⟩ rfl

example : lines (record [] (connMessage (.quicNoBackend "a\nCON [-] \n".toList ["h3".toList]))) =
    ["ERR QUIC connection a".toList, "CON [-] ".toList, " [h3]".toList, []] := by
  decide +kernel

end Verif.LogLines
