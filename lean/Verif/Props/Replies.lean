import Verif.Model.Replies
/-
C147. Clients get the answers that backend servers have sent: an answer that looks complete is the complete
answer, with the status, the headers and the body of the server.
-/
namespace Verif.Replies

open Verif.Path (Str)
open Verif.Http (Headers Ctx)
open Verif.Discovery (AltReq)

namespace Spec

/-- The values of a header, in order. -/
def vals (h : Headers) (k : String) : List Str := h.filterMap fun e => if e.1 = k then some e.2 else none

/-- Headers that are about one connection only (RFC 9110, section 7.6.1), or that the server says are. -/
def Hop (c : Ctx) (h : Headers) (k : String) : Prop :=
  k ∈ ["Connection", "Proxy-Connection", "Keep-Alive", "Proxy-Authenticate", "Proxy-Authorization", "Te", "Trailer",
    "Transfer-Encoding", "Upgrade"] ∨ ∃ v ∈ vals h "Connection", k ∈ c.listed v

/-- The whole body has arrived, and what has arrived is this: all that was announced, or all up to the mark that
ends it. -/
inductive Whole : Answer → List Nat → Prop where
  | announced {a : Answer} {n : Nat} {more : List Nat} {b : List Nat} (hl : a.length = some n)
      (hs : a.sent = b ++ more) (hb : b.length = n) : Whole a b
  | marked {a : Answer} (hl : a.length = none) (hw : a.whole = true) : Whole a a.sent

/-- The transport does not ask for an encoding on its own, or the server has not used it. -/
def Plain (q : Ask) (a : Answer) : Prop :=
  q.proto ≠ .h1 ∨ (∃ e ∈ (Spec.vals q.headers "Accept-Encoding").head?, e ≠ []) ∨
    (∃ e ∈ (Spec.vals q.headers "Range").head?, e ≠ []) ∨
    ∀ v ∈ (Spec.vals a.headers "Content-Encoding").head?, v.map Char.toLower ≠ "gzip".toList

/-- A method and a status with which there is a body. -/
def HasBody (q : Ask) (a : Answer) : Prop := q.method ≠ "HEAD" ∧ a.status ≠ 204 ∧ a.status ≠ 304

end Spec

/-! ## Headers -/

theorem values_vals (h : Headers) (k : String) : h.values k = Spec.vals h k := by
  unfold Headers.values Spec.vals
  induction h with
  | nil => rfl
  | cons e h ih =>
    rw [List.filter_cons, List.filterMap_cons]
    by_cases he : e.1 = k
    · simp [he, ih]
    · simp [he, ih]

theorem get_vals (h : Headers) (k : String) : h.get k = (Spec.vals h k).head?.getD [] := by
  unfold Headers.get Spec.vals
  induction h with
  | nil => rfl
  | cons e h ih =>
    rw [List.find?_cons, List.filterMap_cons]
    by_cases he : e.1 = k
    · simp [he]
    · simp [he, ih]

theorem vals_append (h g : Headers) (k : String) : Spec.vals (h ++ g) k = Spec.vals h k ++ Spec.vals g k := by
  unfold Spec.vals; rw [List.filterMap_append]

theorem vals_filter (h : Headers) (p : String × Str → Bool) (k : String) (hp : ∀ v, p (k, v) = true) :
    Spec.vals (h.filter p) k = Spec.vals h k := by
  unfold Spec.vals
  induction h with
  | nil => rfl
  | cons e h ih =>
    rw [List.filter_cons, List.filterMap_cons]
    by_cases he : e.1 = k
    · have : p e = true := by rw [← hp e.2, ← he]
      simp [this, he, ih]
    · split
      · simp [he, ih]
      · simp [he, ih]

theorem vals_filter_none (h : Headers) (p : String × Str → Bool) (k : String) (hp : ∀ v, p (k, v) = false) :
    Spec.vals (h.filter p) k = [] := by
  unfold Spec.vals
  rw [List.filterMap_eq_nil_iff]
  rintro ⟨n, v⟩ he
  have h2 := (List.mem_filter.mp he).2
  dsimp only
  split
  · rename_i hk; subst hk; rw [hp] at h2; cases h2
  · rfl

theorem vals_set_other (h : Headers) (k k' : String) (v : Str) (hk : k ≠ k') :
    Spec.vals (h.set k' v) k = Spec.vals h k := by
  unfold Headers.set Headers.del
  rw [vals_append, vals_filter _ _ _ (by simp [hk])]
  simp [Spec.vals, Ne.symm hk]

theorem vals_set (h : Headers) (k : String) (v : Str) : Spec.vals (h.set k v) k = [v] := by
  unfold Headers.set Headers.del
  rw [vals_append, vals_filter_none _ _ _ (by simp)]
  simp [Spec.vals]

theorem mem_hop (k : String) : k ∈ Http.hopHeaders ↔
    k ∈ ["Connection", "Proxy-Connection", "Keep-Alive", "Proxy-Authenticate", "Proxy-Authorization", "Te", "Trailer",
      "Transfer-Encoding", "Upgrade"] := Iff.rfl

theorem hop_iff (c : Ctx) (h : Headers) (k : String) :
    Spec.Hop c h k ↔ k ∈ (h.values "Connection").flatMap c.listed ∨ k ∈ Http.hopHeaders := by
  rw [values_vals, List.mem_flatMap, mem_hop]
  unfold Spec.Hop
  exact Or.comm

theorem vals_removeHop (c : Ctx) (h : Headers) (k : String) (hk : ¬ Spec.Hop c h k) :
    Spec.vals (Http.removeHop c h) k = Spec.vals h k := by
  rw [hop_iff] at hk
  unfold Http.removeHop
  dsimp only
  rw [vals_filter, vals_filter]
  · intro v; exact decide_eq_true fun hm => hk (.inl hm)
  · intro v; exact decide_eq_true fun hm => hk (.inr hm)

theorem vals_removeHop_hop (c : Ctx) (h : Headers) (k : String) (hk : Spec.Hop c h k) :
    Spec.vals (Http.removeHop c h) k = [] := by
  rw [hop_iff] at hk
  unfold Http.removeHop
  dsimp only
  by_cases h2 : k ∈ Http.hopHeaders
  · exact vals_filter_none _ _ _ (by simp [h2])
  · rw [vals_filter _ _ _ (by simp [h2])]
    refine vals_filter_none _ _ _ fun v => decide_eq_false ?_
    exact fun hn => hn (hk.resolve_right h2)

theorem vals_modify (alt : AltReq) (n : Nat) (h : Headers) (k : String) (h1 : k ≠ "Strict-Transport-Security")
    (h2 : k ≠ "Alt-Svc") : Spec.vals (modify alt n h) k = Spec.vals h k := by
  have e : Spec.vals (Http.modifyResponse n h) k = Spec.vals h k := by
    unfold Http.modifyResponse
    split
    · exact vals_set_other _ _ _ _ h1
    · rfl
  unfold modify
  dsimp only
  split
  · exact e
  · rw [vals_set_other _ _ _ _ h2, e]

/-! ## The body -/

theorem bodyless_false {q : Ask} {a : Answer} (h : Spec.HasBody q a) : bodyless q a = false := by
  obtain ⟨h1, h2, h3⟩ := h
  simp [bodyless, h1, h2, h3]

theorem plain_decodes {q : Ask} {a : Answer} (h : Spec.Plain q a) : decodes q a = false := by
  unfold decodes asksGzip
  rw [get_vals, get_vals, get_vals]
  have nonempty : ∀ {l : List Str}, (∃ e ∈ l.head?, e ≠ []) → l.head?.getD [] ≠ [] := by
    rintro l ⟨e, he, hn⟩
    rw [Option.mem_def] at he
    rw [he]; exact hn
  rcases h with h | h | h | h
  · simp [h]
  · simp [nonempty h]
  · simp [nonempty h]
  · have : ((Spec.vals a.headers "Content-Encoding").head?.getD []).map Char.toLower ≠ "gzip".toList := by
      cases hv : (Spec.vals a.headers "Content-Encoding").head? with
      | none => exact (by decide +kernel)
      | some v => exact h v hv
    simp only [this, decide_false, Bool.and_false]

theorem transport_plain (gunzip : List Nat → List Nat × Bool) {q : Ask} {a : Answer} (h : decodes q a = false) :
    transport gunzip q a =
      { status := a.status, headers := a.headers, length := a.length, body := a.body q, ok := a.ended q } := by
  unfold transport
  rw [if_neg (by rw [h]; exact Bool.false_ne_true)]

theorem body_of (q : Ask) (a : Answer) (h : Spec.HasBody q a) (n : Nat) (hl : a.length = some n) :
    a.body q = a.sent.take n := by
  unfold Answer.body
  rw [if_neg (by rw [bodyless_false h]; exact Bool.false_ne_true), hl]

theorem body_of' (q : Ask) (a : Answer) (h : Spec.HasBody q a) (hl : a.length = none) : a.body q = a.sent := by
  unfold Answer.body
  rw [if_neg (by rw [bodyless_false h]; exact Bool.false_ne_true), hl]

/-- C147 (complete, partial). An answer whose length the server has announced, and that is not decoded on the way,
looks complete to the client only if its whole body has arrived, and then this is the body that the client gets.
Missing: answers without a length, and those that the transport decodes (`truncated_violated`,
`decoded_violated`). -/
theorem complete_partial (c : Ctx) (alt : AltReq) (gunzip : List Nat → List Nat × Bool) (pre : Headers) (q : Ask)
    (a : Answer) (hb : Spec.HasBody q a) (hp : Spec.Plain q a) (hl : a.length ≠ none)
    (hc : (reply c alt gunzip pre q (some a)).complete = true) :
    Spec.Whole a (reply c alt gunzip pre q (some a)).body := by
  have ht := transport_plain gunzip (plain_decodes hp)
  unfold reply at hc ⊢
  dsimp only at hc ⊢
  rw [ht] at hc ⊢
  dsimp only at hc ⊢
  cases hn : a.length with
  | none => exact absurd hn hl
  | some n =>
    rw [body_of q a hb n hn] at hc ⊢
    rw [hn, bodyless_false hb] at hc
    unfold recovered finish at hc
    dsimp only at hc
    rw [Bool.false_or, decide_eq_true_iff] at hc
    exact .announced hn (List.take_append_drop n a.sent).symm hc.symm

/-- C147 (complete, the rest). Every answer that arrives whole and is not decoded gets to the client whole, with
or without a length. -/
theorem whole_delivered (c : Ctx) (alt : AltReq) (gunzip : List Nat → List Nat × Bool) (pre : Headers) (q : Ask)
    (a : Answer) (b : List Nat) (hb : Spec.HasBody q a) (hp : Spec.Plain q a) (hw : Spec.Whole a b) :
    (reply c alt gunzip pre q (some a)).complete = true ∧ (reply c alt gunzip pre q (some a)).body = b ∧
      (reply c alt gunzip pre q (some a)).length = a.length := by
  have ht := transport_plain gunzip (plain_decodes hp)
  unfold reply
  dsimp only
  rw [ht]
  dsimp only
  cases hw with
  | announced hl hs hn =>
    rename_i n more
    rw [body_of q a hb n hl, hl, hs]
    have : (b ++ more).take n = b := by rw [← hn]; simp
    rw [this]
    refine ⟨?_, rfl, rfl⟩
    unfold finish recovered
    dsimp only
    rw [Bool.or_eq_true]
    exact .inr (decide_eq_true hn.symm)
  | marked hl hw =>
    rw [body_of' q a hb hl, hl]
    refine ⟨?_, rfl, rfl⟩
    unfold finish recovered
    simp

/-- C147 (violated). If the connection to the server breaks in the middle of an answer without a length, the client
gets a part of the body, and takes it for the whole: `ReverseProxy` panics so that the connection to the client be
reset, but the handler recovers from that panic too. -/
theorem truncated_violated (c : Ctx) (alt : AltReq) (gunzip : List Nat → List Nat × Bool) (pre : Headers) (q : Ask)
    (a : Answer) (hb : Spec.HasBody q a) (hp : Spec.Plain q a) (hl : a.length = none) (hw : a.whole = false) :
    (reply c alt gunzip pre q (some a)).complete = true ∧ (reply c alt gunzip pre q (some a)).body = a.sent ∧
      ¬ ∃ b, Spec.Whole a b := by
  have ht := transport_plain gunzip (plain_decodes hp)
  refine ⟨?_, ?_, ?_⟩
  · unfold reply
    dsimp only
    rw [ht]
    dsimp only
    rw [hl]
    unfold finish recovered
    simp
  · unfold reply
    dsimp only
    rw [ht]
    exact body_of' q a hb hl
  · rintro ⟨b, h⟩
    cases h with
    | announced h _ _ => rw [hl] at h; cases h
    | marked _ h => rw [hw] at h; cases h

/-- C147 (violated). A client that names no encodings gets other bytes than those the server has sent, if the
server answers over HTTP/1 with gzip: they are decoded, as far as that is possible, and look complete even if it is
not. The length and the encoding are no longer announced; all other headers, like ETag or Digest, are still those of
the encoded body. -/
theorem decoded_violated (c : Ctx) (alt : AltReq) (gunzip : List Nat → List Nat × Bool) (pre : Headers) (q : Ask)
    (a : Answer) (hb : Spec.HasBody q a) (h1 : q.proto = .h1) (he : Spec.vals q.headers "Accept-Encoding" = [])
    (hr : Spec.vals q.headers "Range" = []) (hl : a.length ≠ some 0)
    (hg : Spec.vals a.headers "Content-Encoding" = ["gzip".toList]) :
    (reply c alt gunzip pre q (some a)).complete = true ∧
      (reply c alt gunzip pre q (some a)).body = (gunzip (a.body q)).1 ∧
      (reply c alt gunzip pre q (some a)).length = none ∧
      (reply c alt gunzip [] q (some a)).headers.values "Content-Encoding" = [] := by
  have hd : decodes q a = true := by
    unfold decodes asksGzip
    rw [get_vals, get_vals, get_vals, he, hr, hg, bodyless_false hb]
    have : ("gzip".toList.map Char.toLower) = "gzip".toList := by decide +kernel
    simp only [List.head?_nil, List.head?_cons, Option.getD_none, Option.getD_some, this]
    simp [h1, hl, hb.1]
  have ht : transport gunzip q a =
      { status := a.status, headers := a.headers.del "Content-Encoding", length := none, body := (gunzip (a.body q)).1,
        ok := (gunzip (a.body q)).2 && a.ended q } := by
    unfold transport
    rw [if_pos hd]
  refine ⟨?_, ?_, ?_, ?_⟩
  · unfold reply
    dsimp only
    rw [ht]
    unfold finish recovered
    simp
  · unfold reply
    dsimp only
    rw [ht]
  · unfold reply
    dsimp only
    rw [ht]
  · rw [values_vals]
    unfold reply
    dsimp only
    rw [ht, List.nil_append, vals_modify _ _ _ _ (by decide +kernel) (by decide +kernel)]
    dsimp only
    by_cases hh : Spec.Hop c (a.headers.del "Content-Encoding") "Content-Encoding"
    · exact vals_removeHop_hop _ _ _ hh
    · rw [vals_removeHop _ _ _ hh]
      exact vals_filter_none _ _ _ (by simp)

/-! ## Status and headers -/

/-- C147 (status). The client gets the status of the server; without an answer, 502. -/
theorem status_kept (c : Ctx) (alt : AltReq) (gunzip : List Nat → List Nat × Bool) (pre : Headers) (q : Ask)
    (a : Option Answer) :
    (reply c alt gunzip pre q a).status = match a with | some a => a.status | none => 502 := by
  cases a with
  | none => rfl
  | some a =>
    unfold reply transport
    dsimp only
    split <;> rfl

/-- C147 (headers, partial). After the headers that the proxy had set before, come all values that the server has
sent, in their order, of every header that is not hop-by-hop and is none of the two that the proxy adds. Missing:
Content-Encoding where the answer is decoded. -/
theorem headers_kept_partial (c : Ctx) (alt : AltReq) (gunzip : List Nat → List Nat × Bool) (pre : Headers) (q : Ask)
    (a : Answer) (k : String) (hk : ¬ Spec.Hop c a.headers k) (h1 : k ≠ "Strict-Transport-Security")
    (h2 : k ≠ "Alt-Svc") (h3 : Spec.Plain q a ∨ k ≠ "Content-Encoding") :
    Spec.vals (reply c alt gunzip pre q (some a)).headers k = Spec.vals pre k ++ Spec.vals a.headers k := by
  unfold reply
  dsimp only
  rw [vals_append, vals_modify _ _ _ _ h1 h2]
  by_cases hd : decodes q a = true
  · have h4 : k ≠ "Content-Encoding" := by
      rcases h3 with h | h
      · rw [plain_decodes h] at hd; cases hd
      · exact h
    have e : (transport gunzip q a).headers = a.headers.del "Content-Encoding" := by
      unfold transport; rw [if_pos hd]
    have e2 : ∀ k', k' ≠ "Content-Encoding" →
        Spec.vals (a.headers.del "Content-Encoding") k' = Spec.vals a.headers k' := fun k' hk' =>
      vals_filter _ _ _ (by simp [hk'])
    rw [e, vals_removeHop, e2 _ h4]
    unfold Spec.Hop at hk ⊢
    rw [e2 "Connection" (by decide +kernel)]
    exact hk
  · rw [transport_plain gunzip (Bool.eq_false_iff.mpr hd), vals_removeHop _ _ _ hk]

/-- C147 (headers, no others). A hop-by-hop header of the server does not reach the client. -/
theorem hop_removed (c : Ctx) (alt : AltReq) (gunzip : List Nat → List Nat × Bool) (q : Ask) (a : Answer) (k : String)
    (hk : Spec.Hop c a.headers k) (h1 : k ≠ "Strict-Transport-Security") (h2 : k ≠ "Alt-Svc") :
    Spec.vals (reply c alt gunzip [] q (some a)).headers k = [] := by
  unfold reply
  dsimp only
  rw [List.nil_append, vals_modify _ _ _ _ h1 h2]
  by_cases hd : decodes q a = true
  · have e : (transport gunzip q a).headers = a.headers.del "Content-Encoding" := by
      unfold transport; rw [if_pos hd]
    rw [e]
    by_cases h4 : k = "Content-Encoding"
    · subst h4
      by_cases hh : Spec.Hop c (a.headers.del "Content-Encoding") "Content-Encoding"
      · exact vals_removeHop_hop _ _ _ hh
      · rw [vals_removeHop _ _ _ hh]
        exact vals_filter_none _ _ _ (by simp)
    · refine vals_removeHop_hop _ _ _ ?_
      unfold Spec.Hop at hk ⊢
      have e2 : Spec.vals (a.headers.del "Content-Encoding") "Connection" = Spec.vals a.headers "Connection" :=
        vals_filter _ _ _ (by simp)
      rw [e2]
      exact hk
  · rw [transport_plain gunzip (Bool.eq_false_iff.mpr hd)]
    exact vals_removeHop_hop _ _ _ hk

/-- C147 (headers that are added). Where the server sets Strict-Transport-Security or Alt-Svc itself, its values
are kept. -/
theorem own_kept (c : Ctx) (alt : AltReq) (gunzip : List Nat → List Nat × Bool) (q : Ask) (a : Answer) (k : String)
    (hk : k = "Strict-Transport-Security" ∨ k = "Alt-Svc") (hh : ¬ Spec.Hop c a.headers k) (hp : Spec.Plain q a)
    (v : Str) (hv : (Spec.vals a.headers k).head? = some v) (hn : v ≠ []) :
    Spec.vals (reply c alt gunzip [] q (some a)).headers k = Spec.vals a.headers k := by
  unfold reply
  dsimp only
  rw [transport_plain gunzip (plain_decodes hp), List.nil_append]
  dsimp only
  rw [← vals_removeHop c a.headers k hh] at hv ⊢
  generalize Http.removeHop c a.headers = h at hv ⊢
  have hg : h.get k = v := by rw [get_vals, hv]; rfl
  unfold modify
  dsimp only
  rcases hk with rfl | rfl
  · have e : Http.modifyResponse a.status h = h := by
      unfold Http.modifyResponse
      rw [if_neg]
      rw [hg]; exact fun h => hn h.2
    rw [e]
    split
    · rfl
    · exact vals_set_other _ _ _ _ (by decide +kernel)
  · have e : Spec.vals (Http.modifyResponse a.status h) "Alt-Svc" = Spec.vals h "Alt-Svc" := by
      unfold Http.modifyResponse
      split
      · exact vals_set_other _ _ _ _ (by decide +kernel)
      · rfl
    have g : (Http.modifyResponse a.status h).get "Alt-Svc" = v := by rw [get_vals, e, hv]; rfl
    rw [if_pos]
    · exact e
    · rw [g]
      unfold Discovery.altSvcResponse
      rw [if_neg]
      exact fun h => hn h.2.2

theorem whole_cases {a : Answer} {b : List Nat} (h : Spec.Whole a b) :
    a.length = some b.length ∨ (a.length = none ∧ a.whole = true) := by
  cases h with
  | announced hl _ hb => exact .inl (by rw [hl, hb])
  | marked hl hw => exact .inr ⟨hl, hw⟩

/-- C147 (the cause). If the panic of `ReverseProxy` reached net/http, the client would take an answer for complete
exactly if it is whole; without the deferred functions the property would hold for all answers that are not
decoded. -/
theorem unrecovered (gunzip : List Nat → List Nat × Bool) (q : Ask) (a : Answer) (hb : Spec.HasBody q a)
    (hp : Spec.Plain q a) :
    finish (bodyless q a) (transport gunzip q a).length (transport gunzip q a).body (copied (transport gunzip q a)) = true ↔
      Spec.Whole a (transport gunzip q a).body := by
  rw [transport_plain gunzip (plain_decodes hp)]
  dsimp only [copied]
  have hbl := bodyless_false hb
  cases hn : a.length with
  | some n =>
    rw [body_of q a hb n hn]
    unfold Answer.ended
    rw [hbl, hn]
    simp only [Bool.false_or, decide_eq_true_eq]
    by_cases hle : n ≤ a.sent.length
    · rw [if_pos hle]
      simp only [finish, Bool.false_or, List.length_take, decide_eq_true_eq]
      refine ⟨fun _ => .announced hn (List.take_append_drop n a.sent).symm (by rw [List.length_take]; omega), fun _ => by omega⟩
    · rw [if_neg hle]
      refine ⟨fun h => (nomatch h), fun h => ?_⟩
      rcases whole_cases h with h | h
      · rw [hn, List.length_take, Option.some.injEq] at h
        omega
      · rw [hn] at h; cases h.1
  | none =>
    rw [body_of' q a hb hn]
    unfold Answer.ended
    rw [hbl, hn]
    simp only [Bool.false_or]
    cases hw : a.whole with
    | true => exact ⟨fun _ => .marked hn hw, fun _ => rfl⟩
    | false =>
      refine ⟨fun h => (nomatch h), fun h => ?_⟩
      rcases whole_cases h with h | h
      · rw [hn] at h; cases h
      · rw [hw] at h; cases h.2

/-- The same for answers that are decoded: they would look complete exactly if they arrived and could be decoded in
full. -/
theorem unrecovered_decoded (gunzip : List Nat → List Nat × Bool) (q : Ask) (a : Answer) (hb : Spec.HasBody q a)
    (hd : decodes q a = true) :
    finish (bodyless q a) (transport gunzip q a).length (transport gunzip q a).body (copied (transport gunzip q a)) = true ↔
      (gunzip (a.body q)).2 = true ∧ Spec.Whole a (a.body q) := by
  have hbl := bodyless_false hb
  have he : a.ended q = true ↔ Spec.Whole a (a.body q) := by
    cases hn : a.length with
    | some n =>
      rw [body_of q a hb n hn]
      unfold Answer.ended
      rw [hbl, hn]
      simp only [Bool.false_or, decide_eq_true_eq]
      refine ⟨fun h => .announced hn (List.take_append_drop n a.sent).symm (by rw [List.length_take]; omega), fun h => ?_⟩
      rcases whole_cases h with h | h
      · rw [hn, List.length_take, Option.some.injEq] at h
        omega
      · rw [hn] at h; cases h.1
    | none =>
      rw [body_of' q a hb hn]
      unfold Answer.ended
      rw [hbl, hn]
      simp only [Bool.false_or]
      refine ⟨fun h => .marked hn h, fun h => ?_⟩
      rcases whole_cases h with h | h
      · rw [hn] at h; cases h
      · exact h.2
  rw [← he]
  unfold transport
  rw [if_pos hd]
  dsimp only [copied]
  rw [hbl]
  cases (gunzip (a.body q)).2 <;> cases a.ended q <;> simp [finish]

/-- C147 (no answer). If no answer arrives, the client gets status 502 and nothing else, and knows it. -/
theorem none_empty (c : Ctx) (alt : AltReq) (gunzip : List Nat → List Nat × Bool) (pre : Headers) (q : Ask) :
    (reply c alt gunzip pre q none).complete = true ∧ (reply c alt gunzip pre q none).body = [] ∧
      (reply c alt gunzip pre q none).length = some (reply c alt gunzip pre q none).body.length :=
  ⟨rfl, rfl, rfl⟩

/-- C147 (no body). Answers without a body are complete, with the length that the server has announced. -/
theorem nobody_complete (c : Ctx) (alt : AltReq) (gunzip : List Nat → List Nat × Bool) (pre : Headers) (q : Ask)
    (a : Answer) (hb : ¬ Spec.HasBody q a) :
    (reply c alt gunzip pre q (some a)).complete = true ∧ (reply c alt gunzip pre q (some a)).body = [] ∧
      (reply c alt gunzip pre q (some a)).length = a.length := by
  have hb' : bodyless q a = true := by
    apply Classical.byContradiction
    intro h
    apply hb
    have := Bool.eq_false_iff.mpr h
    simp only [bodyless, Bool.or_eq_false_iff, decide_eq_false_iff_not] at this
    exact ⟨this.1.1, this.1.2, this.2⟩
  have hd : decodes q a = false := by unfold decodes; rw [hb']; simp
  unfold reply
  dsimp only
  rw [transport_plain gunzip hd]
  dsimp only
  rw [hb']
  refine ⟨?_, ?_, rfl⟩
  · unfold finish recovered; simp
  · unfold Answer.body; rw [if_pos hb']

/-! ## Examples -/

namespace Ex

def alt : AltReq := { http3Server := false, alpn := none, negotiated := none, host := [] }

def get : Ask := { proto := .h1, method := "GET", headers := [("Accept-Encoding", "gzip".toList)] }

/-- A client that names no encodings. -/
def bare : Ask := { get with headers := [] }

/-- Half of an answer in chunks. -/
def half : Answer := { status := 200, headers := [("Content-Type", "text/html".toList), ("Connection", "close".toList)],
                       length := none, sent := [1, 2], whole := false }

/-- An encoded one. -/
def zipped : Answer := { status := 200, headers := [("Content-Encoding", "gzip".toList), ("Etag", "1".toList)],
                         length := some 3, sent := [31, 139, 0], whole := true }

def gunzip : List Nat → List Nat × Bool := fun b => (b.drop 2, false)

example : (reply {} alt gunzip [] get (some half)).complete = true ∧
    (reply {} alt gunzip [] get (some half)).body = [1, 2] ∧
    (reply {} alt gunzip [] get (some half)).headers =
      [("Content-Type", "text/html".toList), ("Strict-Transport-Security", "max-age=2592000".toList)] := by
  decide +kernel

example : Spec.HasBody get half ∧ Spec.Plain get half ∧ half.length = none ∧ half.whole = false :=
  ⟨⟨by decide +kernel, by decide +kernel, by decide +kernel⟩, .inr (.inl ⟨"gzip".toList, rfl, by decide +kernel⟩), rfl,
    rfl⟩

-- with a length, the client notices
example : (reply {} alt gunzip [] get (some { half with length := some 3 })).complete = false ∧
    (reply {} alt gunzip [] get (some { half with length := some 2 })).complete = true := by decide +kernel

-- decoding fails, and the answer looks complete
example : (reply {} alt gunzip [] bare (some zipped)).body = [0] ∧
    (reply {} alt gunzip [] bare (some zipped)).complete = true ∧
    (reply {} alt gunzip [] get (some zipped)).body = [31, 139, 0] := by decide +kernel

example : Spec.vals bare.headers "Accept-Encoding" = [] ∧
    Spec.vals zipped.headers "Content-Encoding" = ["gzip".toList] := by decide +kernel

example : Spec.Hop {} half.headers "Connection" := .inl (by decide +kernel)

end Ex

end Verif.Replies
