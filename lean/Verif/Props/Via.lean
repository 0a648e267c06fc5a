import Verif.Props.Headers
/-
C34: forwarding loops.
-/
namespace Verif.Http

open Verif.Path (Str)

/-! ## Splitting and joining -/

theorem splitVia_nocomma (x rest cur : Str) (h : ',' ∉ x) (skip : Bool)
    (hs : skip = true → x.head? ≠ some ' ' ∧ x ≠ []) :
    splitVia (x ++ ',' :: rest) cur skip = (cur ++ x) :: splitVia rest [] true ∧
    splitVia x cur skip = [cur ++ x] := by
  induction x generalizing cur skip with
  | nil =>
    cases skip with
    | true => exact absurd rfl (hs rfl).2
    | false => simp [splitVia]
  | cons a t ih =>
    simp only [List.mem_cons, not_or] at h
    have hstep : ∀ r, splitVia (a :: r) cur skip = splitVia r (cur ++ [a]) false := by
      intro r
      rw [splitVia]
      · intro e; exact h.1 e.symm
      · intro e1 e2; subst e2; exact absurd rfl (hs e1).1
    have := ih (cur ++ [a]) h.2 false (fun e => by cases e)
    rw [List.cons_append, hstep, hstep, this.1, this.2]
    simp

/-- Elements as they come out of the split: no commas, and no leading space after the first. -/
def Elems : Bool → List Str → Prop
  | _, [] => True
  | first, x :: t => ',' ∉ x ∧ (first = false → x.head? ≠ some ' ') ∧ Elems false t

theorem splitVia_elems (v cur : Str) (skip first : Bool) (hc : ',' ∉ cur)
    (hf : first = false → cur.head? ≠ some ' ')
    (hs : first = false → cur = [] → skip = true) : Elems first (splitVia v cur skip) := by
  induction v generalizing cur skip first with
  | nil => rw [splitVia]; exact ⟨hc, hf, trivial⟩
  | cons a t ih =>
    by_cases h1 : a = ','
    · subst h1
      rw [splitVia]
      exact ⟨hc, hf, ih [] true false (by simp) (by simp) (fun _ _ => rfl)⟩
    · by_cases h2 : a = ' ' ∧ skip = true
      · obtain ⟨rfl, rfl⟩ := h2
        rw [splitVia]
        exact ih cur true first hc hf (fun _ _ => rfl)
      · rw [splitVia]
        · apply ih
          · simp only [List.mem_append, List.mem_singleton, not_or]
            exact ⟨hc, fun e => h1 e.symm⟩
          · intro hff
            cases cur with
            | nil =>
              simp only [List.nil_append, List.head?_cons, ne_eq, Option.some.injEq]
              intro e; exact h2 ⟨e, hs hff rfl⟩
            | cons x y => simpa using hf hff
          · intro _ e; simp at e
        · exact h1
        · intro e1 e2; exact h2 ⟨e2, e1⟩

theorem skip_space (rest cur : Str) : splitVia (' ' :: rest) cur true = splitVia rest cur true := rfl

/-- Splitting undoes joining. -/
theorem split_join_via (l : List Str) (x : Str) (skip : Bool)
    (h : Elems (!skip) (x :: l)) :
    splitVia (List.intercalate ", ".toList (x :: l)) [] skip = x :: l := by
  induction l generalizing x skip with
  | nil =>
    obtain ⟨h1, h2, _⟩ := h
    rw [List.intercalate_singleton]
    cases skip with
    | false => simpa using (splitVia_nocomma x [] [] h1 false (by simp)).2
    | true =>
      cases x with
      | nil => simp [splitVia]
      | cons a t => simpa using (splitVia_nocomma (a :: t) [] [] h1 true (fun _ => ⟨h2 rfl, by simp⟩)).2
  | cons y t ih =>
    obtain ⟨h1, h2, h3⟩ := h
    have e : List.intercalate ", ".toList (x :: y :: t) = x ++ ',' :: ' ' :: List.intercalate ", ".toList (y :: t) := by
      rw [List.intercalate_cons_of_ne_nil (by simp)]
      simp
    have hrest := ih y true h3
    rw [e]
    cases skip with
    | false =>
      rw [(splitVia_nocomma x _ [] h1 false (by simp)).1, skip_space, hrest]; simp
    | true =>
      cases x with
      | nil => rw [List.nil_append, splitVia, skip_space, hrest]
      | cons a t =>
        rw [(splitVia_nocomma (a :: t) _ [] h1 true (fun _ => ⟨h2 rfl, by simp⟩)).1, skip_space, hrest]; simp

/-- The hops recorded in a Via value. -/
def Spec.hops (v : Str) : List Str := if v = [] then [] else splitVia v [] false

theorem afterSpace_eq (a b : Str) (h : ' ' ∉ a) : afterSpace (a ++ ' ' :: b) = b := by
  induction a with
  | nil => rfl
  | cons c t ih =>
    simp only [List.mem_cons, not_or] at h
    rw [List.cons_append, afterSpace]
    · exact ih h.2
    · intro e; exact h.1 e.symm

theorem elems_append {first : Bool} {l : List Str} {x : Str} (h : Elems first l) (hx : ',' ∉ x)
    (hs : x.head? ≠ some ' ') : Elems first (l ++ [x]) := by
  induction l generalizing first with
  | nil => exact ⟨hx, fun _ => hs, trivial⟩
  | cons a t ih => exact ⟨h.1, h.2.1, ih h.2.2⟩

/-- Text that is safe as protocol version in a Via element. -/
def Spec.Token (s : Str) : Prop := s ≠ [] ∧ ',' ∉ s ∧ ' ' ∉ s

theorem via_some {me proto value v : Str} (h : via me proto value = some v) (hp : Spec.Token proto)
    (hme : ',' ∉ me) :
    (∀ x ∈ Spec.hops value, afterSpace x ≠ me) ∧ Spec.hops v = Spec.hops value ++ [proto ++ ' ' :: me] := by
  unfold via at h
  dsimp only at h
  change (if (Spec.hops value).any _ = true then _ else some (List.intercalate _ (Spec.hops value ++ _))) = _ at h
  split at h
  · cases h
  · rename_i hany
    constructor
    · intro x hx e
      apply hany
      rw [List.any_eq_true]
      exact ⟨x, hx, by simpa using e⟩
    · have hel : Elems true (Spec.hops value) := by
        unfold Spec.hops
        split
        · trivial
        · exact splitVia_elems value [] false true (by simp) (fun e => by cases e) (fun e => by cases e)
      have hnew : Elems true (Spec.hops value ++ [proto ++ ' ' :: me]) := by
        apply elems_append hel
        · simp only [List.mem_append, List.mem_cons, not_or]
          exact ⟨hp.2.1, by decide, hme⟩
        · cases hpp : proto with
          | nil => exact absurd hpp hp.1
          | cons a t =>
            simp only [List.cons_append, List.head?_cons, ne_eq, Option.some.injEq]
            intro e; subst e; exact hp.2.2 (by rw [hpp]; simp)
      cases h
      generalize Spec.hops value = l at hnew
      cases hl : l ++ [proto ++ ' ' :: me] with
      | nil => simp at hl
      | cons a t =>
        rw [hl] at hnew
        have := split_join_via t a false hnew
        unfold Spec.hops
        rw [if_neg, this]
        intro e
        rw [e] at this
        simp only [splitVia, List.cons.injEq] at this
        obtain ⟨rfl, rfl⟩ := this
        cases l with
        | nil => simp at hl
        | cons _ _ => simp at hl

/-! ## C34 -/

/-- One proxy's part in the life of a request: context, backend, the request as received and the
headers of the request as forwarded. -/
structure Hop where
  c : Ctx
  be : Be
  r : Req
  out : Headers

/-- The hop forwards the request. -/
def Hop.Forwards (h : Hop) : Prop :=
  ∃ p ck ov k, serve h.c h.be h.r = .forward p h.out ck ov k

/-- The request received by the second hop is the one forwarded by the first, as far as Via and
Connection headers go. -/
def Hop.Follows (a b : Hop) : Prop :=
  b.r.headers.values viaHeader = a.out.values viaHeader ∧
  b.r.headers.values "Connection" = a.out.values "Connection"

/-- A request travelling from proxy to proxy. -/
inductive Chain : List Hop → Prop
  | one {a} : a.Forwards → Chain [a]
  | cons {a b l} : a.Forwards → a.Follows b → Chain (b :: l) → Chain (a :: b :: l)

/-- The hop's address and protocol are such that Via elements can be told apart, and its
configuration does not touch the Via and Connection headers. -/
def Hop.Sane (h : Hop) : Prop :=
  ',' ∉ h.c.me ∧ Spec.Token h.r.proto ∧
  Spec.NotConfigured h.be viaHeader ∧ Spec.NotConfigured h.be "Connection"

/-- A request that has passed this address, according to its Via header, is not forwarded. -/
theorem loop_cut (c : Ctx) (be : Be) (r : Req) (p : Str) (hs : Headers) (ck : List (String × String))
    (ov : Option Nat) (k : Str) (x : Str) (hx : x ∈ Spec.hops (r.headers.get viaHeader))
    (hme : afterSpace x = c.me) : serve c be r ≠ .forward p hs ck ov k := by
  intro h
  obtain ⟨a, v, hdrs, hp, hh, hv, _⟩ := forward_headers h
  have hget : (a.headers.set "Host" (Spec.target c r).toList).get viaHeader = r.headers.get viaHeader := by
    rw [get_eq, get_eq, values_set_ne _ _ (by decide), (authenticate_uid hp.1).1 _ (by decide)]
  rw [hget] at hv
  unfold via at hv
  dsimp only at hv
  change (if (Spec.hops (r.headers.get viaHeader)).any _ = true then _ else _) = _ at hv
  rw [if_pos] at hv
  · cases hv
  · rw [List.any_eq_true]; exact ⟨x, hx, by simpa using hme⟩

theorem hop_step {h : Hop} (hf : h.Forwards) (hs : h.Sane)
    (hconn : viaHeader ∉ Spec.connListed h.c h.r.headers) :
    (∀ x ∈ Spec.hops (h.r.headers.get viaHeader), afterSpace x ≠ h.c.me) ∧
    Spec.hops (h.out.get viaHeader) = Spec.hops (h.r.headers.get viaHeader) ++ [h.r.proto ++ ' ' :: h.c.me] ∧
    h.out.values "Connection" = [] := by
  obtain ⟨p, ck, ov, k, hf⟩ := hf
  obtain ⟨hme, hproto, hvia, hcc⟩ := hs
  obtain ⟨a, v, hdrs, hp, hh, hv, hout⟩ := forward_headers hf
  have hget : (a.headers.set "Host" (Spec.target h.c h.r).toList).get viaHeader = h.r.headers.get viaHeader := by
    rw [get_eq, get_eq, values_set_ne _ _ (by decide), (authenticate_uid hp.1).1 _ (by decide)]
  rw [hget] at hv
  obtain ⟨h1, h2⟩ := via_some hv hproto hme
  refine ⟨h1, ?_, ?_⟩
  · have : h.out.get viaHeader = v := by
      rw [get_eq, hout, values_reverseProxyHeaders _ _ _ (by decide) (by decide), if_neg]
      · rw [values_setHeaders _ _ _ _ (notConfigured hvia hh), values_set_self]; rfl
      · rintro (hx | hx)
        · apply hconn
          unfold Spec.connListed at hx ⊢
          rw [values_setHeaders _ _ _ _ (notConfigured hcc hh), values_set_ne _ _ (by decide),
            values_set_ne _ _ (by decide), (authenticate_uid hp.1).1 _ (by decide)] at hx
          exact hx
        · revert hx; decide
    rw [this, h2]
  · rw [hout, values_reverseProxyHeaders _ _ _ (by decide) (by decide), if_pos (.inr (by decide))]

/-- C34. Along any chain of proxies through which a request travels, each address occurs at most
once, provided the client's own Connection header does not list Via (see `loop_violated`). -/
theorem no_loop_partial (l : List Hop) (h : Chain l) (hs : ∀ x ∈ l, x.Sane)
    (hfirst : ∀ a ∈ l.head?, viaHeader ∉ Spec.connListed a.c a.r.headers) :
    (l.map fun x => x.c.me).Nodup := by
  have key : ∀ l, Chain l → (∀ x ∈ l, x.Sane) →
      (∀ a ∈ l.head?, viaHeader ∉ Spec.connListed a.c a.r.headers) →
      (l.map fun x => x.c.me).Nodup ∧
      ∀ a ∈ l.head?, ∀ y ∈ Spec.hops (a.r.headers.get viaHeader), ∀ x ∈ l, afterSpace y ≠ x.c.me := by
    intro l h
    induction h with
    | one hf =>
      intro hs hc
      rename_i a
      have := hop_step hf (hs _ (by simp)) (hc a rfl)
      refine ⟨by simp, ?_⟩
      intro a' ha' y hy x hx
      simp at ha' hx; subst ha'; subst hx
      exact this.1 y hy
    | cons hf hfol hch ih =>
      rename_i a b l
      intro hs hc
      obtain ⟨h1, h2, h3⟩ := hop_step hf (hs _ (by simp)) (hc a rfl)
      have ihb := ih (fun x hx => hs x (List.mem_cons_of_mem _ hx)) (by
        intro b' hb'
        simp at hb'; subst hb'
        unfold Spec.connListed
        rw [hfol.2, h3]; simp)
      have hbv : b.r.headers.get viaHeader = a.out.get viaHeader := by rw [get_eq, get_eq, hfol.1]
      have hrec : ∀ x ∈ b :: l, a.c.me ≠ x.c.me := by
        intro x hx
        have := ihb.2 b rfl (a.r.proto ++ ' ' :: a.c.me) (by rw [hbv, h2]; simp) x hx
        rwa [afterSpace_eq _ _ (hs a (by simp)).2.1.2.2] at this
      constructor
      · rw [List.map_cons, List.nodup_cons]
        refine ⟨?_, ihb.1⟩
        intro hm
        obtain ⟨x, hx, he⟩ := List.mem_map.mp hm
        exact hrec x hx he.symm
      · intro a' ha' y hy x hx
        simp at ha'; subst ha'
        rcases List.mem_cons.mp hx with rfl | hx
        · exact h1 y hy
        · exact ihb.2 b rfl y (by rw [hbv, h2]; exact List.mem_append_left _ hy) x hx
  exact (key l h hs hfirst).1

/-- The proxy at 192.0.2.1:443. -/
def Spec.hopA (hs : Headers) : Hop :=
  let c : Ctx := { me := "192.0.2.1:443".toList, listed := fun v => [String.ofList v] }
  let be : Be := { serverNames := ["a"], addresses := ["192.0.2.1:443"] }
  let r : Req := { host := "a", headers := hs }
  { c, be, r, out := match serve c be r with | .forward _ h _ _ _ => h | _ => [] }

/-- C34 fails when the client's Connection header lists Via: the proxy removes the header it has
just added, and forwards the same request to itself and then once more. -/
theorem loop_violated :
    ∃ a b : Hop, Chain [a, b] ∧ a.Sane ∧ b.Sane ∧ a.c.me = b.c.me := by
  refine ⟨Spec.hopA [("Connection", "Via".toList)], Spec.hopA [], ?_, ?_, ?_, rfl⟩
  · refine .cons ⟨_, _, _, _, rfl⟩ ⟨rfl, rfl⟩ (.one ⟨_, _, _, _, rfl⟩)
  · refine ⟨by decide, ⟨by decide, by decide, by decide⟩, ?_, ?_⟩ <;> simp [Spec.NotConfigured, Spec.hopA]
  · refine ⟨by decide, ⟨by decide, by decide, by decide⟩, ?_, ?_⟩ <;> simp [Spec.NotConfigured, Spec.hopA]

/-- Non-vacuity of `no_loop_partial` and `loop_cut`: a chain of one hop, whose result is refused
by the same proxy. -/
example :
    let a := Spec.hopA [(viaHeader, "1.1 x,  2.0 y".toList)]
    Chain [a] ∧ a.Sane ∧ viaHeader ∉ Spec.connListed a.c a.r.headers ∧
    Spec.hops (a.out.get viaHeader) =
      ["1.1 x".toList, "2.0 y".toList, "HTTP/1.1 192.0.2.1:443".toList] ∧
    (match serve a.c a.be { a.r with headers := a.out } with | .loop => True | _ => False) := by
  refine ⟨.one ⟨_, _, _, _, rfl⟩, ⟨by decide, ⟨by decide, by decide, by decide⟩, ?_, ?_⟩, by decide, rfl, trivial⟩
  all_goals simp [Spec.NotConfigured, Spec.hopA]

end Verif.Http
