import Verif.Model.ClientKeys
/-
What a user downloads after having made a key on the certificate page is the private key of the
certificate in it, protected with the password of that form, and the key is used for nothing else; then
the browser forgets it.

The last part holds only if the server answers with a certificate. If it does not, key and password stay
in the memory of the service worker. And with a format that is not known, the key is thrown away after the
certificate has been issued.
-/
namespace Verif.ClientKeys

namespace Spec

/-- The format that a form asks for; OpenPGP unless it says something else. -/
def formatOf (f : Form) : Str := if f.format = [] then "gpg".toList else f.format

/-- The kind of key it asks for. -/
def keytypeOf (f : Form) : Str := if f.keytype = [] then "ecdsa-p256".toList else f.keytype

/-- The package of a run: the key of its request, with the certificate that the server has sent for it,
protected with the password of its form. -/
structure Own (r : Run) (p : Pkg) : Prop where
  cert : r.cert = some p.cert
  key : ∀ c, r.csr = some c → p.key = c.pub
  password : p.password = r.form.password
  protects : p.password ≠ []
  format : (formatOf r.form = "gpg".toList ∧ p.ctype = "application/octet-stream".toList ∧
      p.file = hexText p.cert.serial ++ ".pem.gpg".toList) ∨
    (formatOf r.form = "p12".toList ∧ p.ctype = "application/x-pkcs12".toList ∧
      p.file = hexText p.cert.serial ++ ".p12".toList)

/-- A server that answers a run with a certificate for the key of its request. -/
def Honest (r : Run) : Prop := ∀ cert, r.cert = some cert → ∃ c, r.csr = some c ∧ cert.pub = c.pub

end Spec

open Spec

/-- A key in memory belongs to a run that waits for its certificate. -/
structure Kept (r : Run) (kd : KeyData) : Prop where
  password : kd.password = r.form.password
  protects : r.form.password ≠ []
  format : kd.format = formatOf r.form
  key : ∀ c, r.csr = some c → kd.key = c.pub

/-- Run number `i` has used key `k`; runs before `base` are of an earlier life of the worker. -/
inductive Has (w : World) (base i k : Nat) : Prop
  | csr (r : Run) (c : Csr) : w.runs[i]? = some r → r.csr = some c → c.pub = k → Has w base i k
  | out (r : Run) (p : Pkg) : w.runs[i]? = some r → r.out = some p → p.key = k → Has w base i k
  | mem (r : Run) (kd : KeyData) : w.runs[i]? = some r → base ≤ i → (r.count, kd) ∈ w.mem.keys → kd.key = k →
      Has w base i k

/-- What is true of each run. -/
structure RunOk (base i : Nat) (r : Run) : Prop where
  idx : base ≤ i → r.count = i - base + 1
  gone : i < base → r.phase = .over
  reading : r.phase = .reading → r.csr = none ∧ r.cert = none ∧ r.out = none
  fetching : r.phase = .fetching → r.cert = none ∧ r.out = none
  out : ∀ p, r.out = some p → Own r p

structure Inv (w : World) (base : Nat) : Prop where
  low : base ≤ w.runs.length
  count : w.count = w.runs.length - base
  runs : ∀ i r, w.runs[i]? = some r → RunOk base i r
  mem : ∀ e ∈ w.mem.keys, ∃ i r, w.runs[i]? = some r ∧ base ≤ i ∧ r.phase ≠ .reading ∧ r.cert = none ∧
    r.count = e.1 ∧ Kept r e.2
  wait : ∀ (i : Nat) (r : Run) (c : Csr), w.runs[i]? = some r → base ≤ i → r.csr = some c → r.cert = none →
    ∃ kd, (r.count, kd) ∈ w.mem.keys ∧ kd.key = c.pub
  fresh : ∀ i k, Has w base i k → k < w.mem.fresh
  same : ∀ i k k', Has w base i k → Has w base i k' → k = k'
  uniq : ∀ i j k, Has w base i k → Has w base j k → i = j

theorem Inv.counts {w : World} {base : Nat} (h : Inv w base) {i j : Nat} {r q : Run} (hi : w.runs[i]? = some r)
    (hj : w.runs[j]? = some q) (bi : base ≤ i) (bj : base ≤ j) (hc : r.count = q.count) : i = j := by
  have h1 := (h.runs i r hi).idx bi
  have h2 := (h.runs j q hj).idx bj
  omega

theorem inv_init : Inv init 0 := by
  constructor
  · exact Nat.le_refl _
  · rfl
  · intro i r h; cases h
  · intro e h; cases h
  · intro i r c h; cases h
  · intro i k h
    cases h with
    | csr r c h => cases h
    | out r c h => cases h
    | mem r c h => cases h
  · intro i k k' h
    cases h with
    | csr r c h => cases h
    | out r c h => cases h
    | mem r c h => cases h
  · intro i j k h
    cases h with
    | csr r c h => cases h
    | out r c h => cases h
    | mem r c h => cases h

/-- The claims about keys are kept if the only new key is one that no run has used, for a run without one. -/
theorem keys_kept {w w' : World} {base base' i : Nat} (h : Inv w base)
    (hn : ∀ j k, Has w' base' j k → Has w base j k ∨ (j = i ∧ k = w.mem.fresh ∧ (∀ k', ¬ Has w base i k') ∧
      w.mem.fresh < w'.mem.fresh)) (hf : w.mem.fresh ≤ w'.mem.fresh) :
    (∀ i k, Has w' base' i k → k < w'.mem.fresh) ∧
    (∀ i k k', Has w' base' i k → Has w' base' i k' → k = k') ∧
    (∀ i j k, Has w' base' i k → Has w' base' j k → i = j) := by
  refine ⟨?_, ?_, ?_⟩
  · intro j k hk
    rcases hn j k hk with h1 | ⟨_, rfl, _, h4⟩
    · have := h.fresh j k h1; omega
    · exact h4
  · intro j k k' hk hk'
    rcases hn j k hk with h1 | ⟨rfl, rfl, h3, h4⟩ <;> rcases hn j k' hk' with g1 | ⟨e, rfl, g3, g4⟩
    · exact h.same j k k' h1 g1
    · subst e; exact absurd h1 (g3 k)
    · exact absurd g1 (h3 k')
    · rfl
  · intro a b k ha hb
    rcases hn a k ha with h1 | ⟨e1, e3, h3, h4⟩ <;> rcases hn b k hb with g1 | ⟨e, e2, g3, g4⟩
    · exact h.uniq a b k h1 g1
    · have := h.fresh a _ h1; omega
    · have := h.fresh b _ g1; omega
    · omega

theorem get_append {l : List Run} {a r : Run} {i : Nat} (h : (l ++ [a])[i]? = some r) :
    l[i]? = some r ∨ (i = l.length ∧ r = a) := by
  rcases Nat.lt_trichotomy i l.length with hl | hl | hl
  · rw [List.getElem?_append_left hl] at h; exact .inl h
  · subst hl
    rw [List.getElem?_append_right (Nat.le_refl _)] at h
    simp at h
    exact .inr ⟨rfl, h.symm⟩
  · rw [List.getElem?_append_right (by omega)] at h
    have : i - l.length ≠ 0 := by omega
    rw [List.getElem?_eq_none (by simp; omega)] at h
    cases h

theorem get_lt {l : List Run} {r : Run} {i : Nat} (h : l[i]? = some r) : i < l.length := by
  obtain ⟨h, -⟩ := List.getElem?_eq_some_iff.mp h; exact h

theorem inv_post {w : World} {base : Nat} (h : Inv w base) (f : Form) (lower : Str → Str) :
    Inv (step lower w (.post f)) base := by
  have hl : (step lower w (.post f)).runs =
      w.runs ++ [{ form := f, count := w.count + 1, phase := .reading, csr := none, cert := none, out := none }] := rfl
  have hm : (step lower w (.post f)).mem = w.mem := rfl
  have keep : ∀ {i : Nat} {r : Run}, w.runs[i]? = some r → (step lower w (.post f)).runs[i]? = some r := by
    intro i r hr; rw [hl, List.getElem?_append_left (get_lt hr)]; exact hr
  have hcount := h.count
  have hlow := h.low
  have hk := keys_kept (w' := step lower w (.post f)) (base' := base) (i := 0) h (by
    intro j k hk
    refine .inl ?_
    cases hk with
    | csr r c hj hc e =>
      rw [hl] at hj
      rcases get_append hj with hj | ⟨rfl, rfl⟩
      · exact .csr r c hj hc e
      · cases hc
    | out r p hj hc e =>
      rw [hl] at hj
      rcases get_append hj with hj | ⟨rfl, rfl⟩
      · exact .out r p hj hc e
      · cases hc
    | mem r kd hj hb hc e =>
      rw [hl] at hj
      rcases get_append hj with hj | ⟨rfl, rfl⟩
      · exact .mem r kd hj hb hc e
      · obtain ⟨a, q, ha, ba, -, -, hq, -⟩ := h.mem _ hc
        have := (h.runs a q ha).idx ba
        have := get_lt ha
        dsimp only at hq
        omega) (Nat.le_refl _)
  refine ⟨?_, ?_, ?_, ?_, ?_, hk.1, hk.2.1, hk.2.2⟩
  · rw [hl, List.length_append]; omega
  · rw [hl, List.length_append]
    show w.count + 1 = _
    rw [List.length_singleton]
    omega
  · intro i r hi
    rw [hl] at hi
    rcases get_append hi with hi | ⟨rfl, rfl⟩
    · exact h.runs i r hi
    · refine ⟨fun _ => ?_, fun hb => ?_, fun _ => ⟨rfl, rfl, rfl⟩, fun hp => (nomatch hp), fun p hp => (nomatch hp)⟩
      · show w.count + 1 = _; omega
      · omega
  · intro e he
    obtain ⟨i, r, h1, h2⟩ := h.mem e he
    exact ⟨i, r, keep h1, h2⟩
  · intro i r c hi hb hc hn
    rw [hl] at hi
    rcases get_append hi with hi | ⟨rfl, rfl⟩
    · exact h.wait i r c hi hb hc hn
    · cases hc

theorem inv_restart {w : World} {base : Nat} (h : Inv w base) (lower : Str → Str) :
    Inv (step lower w .restart) w.runs.length := by
  have hl : (step lower w .restart).runs = w.runs.map fun r => { r with phase := Phase.over } := rfl
  have get : ∀ {i : Nat} {r : Run}, (step lower w .restart).runs[i]? = some r →
      ∃ q, w.runs[i]? = some q ∧ r = { q with phase := .over } := by
    intro i r hr
    rw [hl, List.getElem?_map, Option.map_eq_some_iff] at hr
    obtain ⟨q, hq, rfl⟩ := hr
    exact ⟨q, hq, rfl⟩
  have hk := keys_kept (w' := step lower w .restart) (base' := w.runs.length) (i := 0) h (by
    intro j k hk
    refine .inl ?_
    cases hk with
    | csr r c hj hc e =>
      obtain ⟨q, hq, rfl⟩ := get hj
      exact .csr q c hq hc e
    | out r p hj hc e =>
      obtain ⟨q, hq, rfl⟩ := get hj
      exact .out q p hq hc e
    | mem r kd hj hb hc e => cases hc) (Nat.le_refl _)
  refine ⟨?_, ?_, ?_, ?_, ?_, hk.1, hk.2.1, hk.2.2⟩
  · rw [hl, List.length_map]; exact Nat.le_refl _
  · rw [hl, List.length_map]; show 0 = _; omega
  · intro i r hi
    obtain ⟨q, hq, rfl⟩ := get hi
    have hlt := get_lt hq
    refine ⟨fun hb => ?_, fun _ => rfl, fun hp => (nomatch hp), fun hp => (nomatch hp), fun p hp => ?_⟩
    · omega
    · obtain ⟨o1, o2, o3, o4, o5⟩ := (h.runs i q hq).out p hp
      exact ⟨o1, o2, o3, o4, o5⟩
  · intro e he; cases he
  · intro i r c hi hb
    obtain ⟨q, hq, rfl⟩ := get hi
    have hlt := get_lt hq
    omega

theorem get_set {l : List Run} {a r : Run} {i j : Nat} (h : (l.set i a)[j]? = some r) :
    (j = i ∧ r = a) ∨ (j ≠ i ∧ l[j]? = some r) := by
  rw [List.getElem?_set] at h
  split at h
  · rename_i e
    split at h
    · cases h; exact .inl ⟨e.symm, rfl⟩
    · cases h
  · rename_i e; exact .inr ⟨fun e' => e e'.symm, h⟩

theorem set_get {l : List Run} {a r : Run} {i : Nat} (h : l[i]? = some r) : (l.set i a)[i]? = some a := by
  rw [List.getElem?_set, if_pos rfl, if_pos (get_lt h)]

theorem set_other {l : List Run} {a r : Run} {i j : Nat} (hn : j ≠ i) (h : l[j]? = some r) : (l.set i a)[j]? = some r := by
  rw [List.getElem?_set, if_neg (fun e => hn e.symm)]; exact h

/-- What `makeRequest` does: nothing, or one new key. -/
theorem request_cases (lower : Str → Str) (m : Mem) (id : Nat) (f : Form) (ok : Bool) :
    ((makeRequest lower m id f ok).1 = m ∧ (makeRequest lower m id f ok).2 = none) ∨
    ∃ kd : KeyData, kd.key = m.fresh ∧ kd.password = f.password ∧ f.password ≠ [] ∧ kd.format = formatOf f ∧
      (makeRequest lower m id f ok).1 = { keys := (id, kd) :: m.keys.filter (fun e => e.1 ≠ id), fresh := m.fresh + 1 } ∧
      ∀ c, (makeRequest lower m id f ok).2 = some c → c.pub = m.fresh := by
  unfold makeRequest
  dsimp only
  split
  · exact .inl ⟨rfl, rfl⟩
  · rename_i hp
    unfold makeCSR
    dsimp only
    split
    · exact .inl ⟨rfl, rfl⟩
    · rename_i kind hk
      refine .inr ⟨_, rfl, rfl, hp, rfl, rfl, ?_⟩
      intro c hc
      dsimp only at hc
      split at hc
      · cases hc; rfl
      · cases hc

theorem inv_read {w : World} {base : Nat} (h : Inv w base) (lower : Str → Str) {i : Nat} {ok : Bool} {r : Run}
    (hi : w.runs[i]? = some r) (hr : r.phase = .reading) : Inv (read lower w i ok r) base := by
  have hok := h.runs i r hi
  have hbase : base ≤ i := by
    rcases Nat.lt_or_ge i base with hb | hb
    · have := hok.gone hb; rw [hr] at this; cases this
    · exact hb
  obtain ⟨n1, n2, n3⟩ := hok.reading hr
  have other : ∀ e ∈ w.mem.keys, e.1 ≠ r.count := by
    intro e he hc
    obtain ⟨j, q, hj, hb, hp, -, hq, -⟩ := h.mem e he
    have : j = i := h.counts hj hi hb hbase (by rw [hq, hc])
    subst this
    rw [hi] at hj; cases hj
    exact hp hr
  have nokey : ∀ k, ¬ Has w base i k := by
    intro k hk
    cases hk with
    | csr q c hj hc => rw [hi] at hj; cases hj; rw [n1] at hc; cases hc
    | out q c hj hc => rw [hi] at hj; cases hj; rw [n3] at hc; cases hc
    | mem q kd hj hb hc => rw [hi] at hj; cases hj; exact other _ hc rfl
  have hcases := request_cases lower w.mem r.count r.form ok
  have hmem : (read lower w i ok r).mem = (makeRequest lower w.mem r.count r.form ok).1 := rfl
  have hruns : (read lower w i ok r).runs =
      w.runs.set i { r with phase := .fetching, csr := (makeRequest lower w.mem r.count r.form ok).2 } := rfl
  have hcount : (read lower w i ok r).count = w.count := rfl
  generalize makeRequest lower w.mem r.count r.form ok = res at hcases hmem hruns
  have hlen : (read lower w i ok r).runs.length = w.runs.length := by rw [hruns, List.length_set]
  generalize read lower w i ok r = w' at *
  have runs : ∀ a x, w'.runs[a]? = some x → RunOk base a x := by
    intro a x ha
    rw [hruns] at ha
    rcases get_set ha with ⟨rfl, rfl⟩ | ⟨-, ha⟩
    · exact ⟨hok.idx, fun hb => by omega, fun hp => (nomatch hp), fun _ => ⟨n2, n3⟩, fun p hp => by
        simp only [n3] at hp; cases hp⟩
    · exact h.runs a x ha
  have keepmem : ∀ e ∈ w.mem.keys, ∃ j q, w'.runs[j]? = some q ∧ base ≤ j ∧ q.phase ≠ .reading ∧ q.cert = none ∧
      q.count = e.1 ∧ Kept q e.2 := by
    intro e he
    obtain ⟨j, q, hj, hb, hp, hrest⟩ := h.mem e he
    have hne : j ≠ i := by
      rintro rfl
      rw [hi] at hj; cases hj
      exact hp hr
    exact ⟨j, q, by rw [hruns]; exact set_other hne hj, hb, hp, hrest⟩
  rcases hcases with ⟨h1, h2⟩ | ⟨kd, k1, k2, k3, k4, k5, k6⟩
  · rw [h1] at hmem
    have hk := keys_kept (w' := w') (base' := base) (i := 0) h (by
      intro j k hk
      refine .inl ?_
      cases hk with
      | csr q c hj hc e =>
        rw [hruns] at hj
        rcases get_set hj with ⟨rfl, rfl⟩ | ⟨-, hj⟩
        · rw [h2] at hc; cases hc
        · exact .csr q c hj hc e
      | out q p hj hc e =>
        rw [hruns] at hj
        rcases get_set hj with ⟨rfl, rfl⟩ | ⟨-, hj⟩
        · simp only [n3] at hc; cases hc
        · exact .out q p hj hc e
      | mem q kd hj hb hc e =>
        rw [hmem] at hc
        rw [hruns] at hj
        rcases get_set hj with ⟨rfl, rfl⟩ | ⟨-, hj⟩
        · exact absurd rfl (other _ hc)
        · exact .mem q kd hj hb hc e) (by rw [hmem]; exact Nat.le_refl _)
    refine ⟨by rw [hlen]; exact h.low, by rw [hlen, hcount]; exact h.count, runs, by rw [hmem]; exact keepmem, ?_,
      hk.1, hk.2.1, hk.2.2⟩
    intro a x c ha hb hc hn
    rw [hruns] at ha
    rcases get_set ha with ⟨rfl, rfl⟩ | ⟨-, ha⟩
    · rw [h2] at hc; cases hc
    · rw [hmem]; exact h.wait a x c ha hb hc hn
  · rw [k5] at hmem
    have old : ∀ e, e ∈ w'.mem.keys ↔ e = (r.count, kd) ∨ e ∈ w.mem.keys := by
      intro e
      rw [hmem, List.mem_cons, List.mem_filter]
      constructor
      · rintro (he | ⟨he, -⟩)
        · exact .inl he
        · exact .inr he
      · rintro (he | he)
        · exact .inl he
        · exact .inr ⟨he, by simpa using other e he⟩
    have hfresh : w'.mem.fresh = w.mem.fresh + 1 := by rw [hmem]
    have hk := keys_kept (w' := w') (base' := base) (i := i) h (by
      intro j k hk
      cases hk with
      | csr q c hj hc e =>
        rw [hruns] at hj
        rcases get_set hj with ⟨rfl, rfl⟩ | ⟨-, hj⟩
        · exact .inr ⟨rfl, by rw [← e]; exact k6 c hc, nokey, by omega⟩
        · exact .inl (.csr q c hj hc e)
      | out q p hj hc e =>
        rw [hruns] at hj
        rcases get_set hj with ⟨rfl, rfl⟩ | ⟨-, hj⟩
        · simp only [n3] at hc; cases hc
        · exact .inl (.out q p hj hc e)
      | mem q kd' hj hb hc e =>
        rw [hruns] at hj
        rcases (old _).mp hc with he | he
        · obtain ⟨hcq, rfl⟩ := Prod.mk.inj he
          rcases get_set hj with ⟨rfl, rfl⟩ | ⟨hne, hj⟩
          · exact .inr ⟨rfl, by rw [← e]; exact k1, nokey, by omega⟩
          · exact absurd (h.counts hj hi hb hbase hcq) hne
        · rcases get_set hj with ⟨rfl, rfl⟩ | ⟨-, hj⟩
          · exact absurd rfl (other _ he)
          · exact .inl (.mem q kd' hj hb he e)) (by omega)
    refine ⟨by rw [hlen]; exact h.low, by rw [hlen, hcount]; exact h.count, runs, ?_, ?_, hk.1, hk.2.1, hk.2.2⟩
    · intro e he
      rcases (old e).mp he with rfl | he
      · refine ⟨i, { r with phase := .fetching, csr := res.2 },
          by rw [hruns]; exact set_get hi, hbase, fun hp => (nomatch hp), n2, rfl, ?_⟩
        exact ⟨k2, k3, k4, fun c hc => by rw [k1, k6 c hc]⟩
      · exact keepmem e he
    · intro a x c ha hb hc hn
      rw [hruns] at ha
      rcases get_set ha with ⟨rfl, rfl⟩ | ⟨-, ha⟩
      · exact ⟨kd, (old _).mpr (.inl rfl), by rw [k1]; exact (k6 c hc).symm⟩
      · obtain ⟨kd', m1, m2⟩ := h.wait a x c ha hb hc hn
        exact ⟨kd', (old _).mpr (.inr m1), m2⟩

/-- What `makeResponse` does: nothing, or one key leaves the memory. -/
theorem response_cases (m : Mem) (id : Nat) (cert : Option Cert) :
    ((makeResponse m id cert).1 = m ∧ (makeResponse m id cert).2 = none ∧ (cert ≠ none → ∀ e ∈ m.keys, e.1 ≠ id)) ∨
    ∃ kd c, (id, kd) ∈ m.keys ∧ cert = some c ∧
      (makeResponse m id cert).1 = { m with keys := m.keys.filter (fun e => e.1 ≠ id) } ∧
      (makeResponse m id cert).2 = package kd c := by
  unfold makeResponse
  split
  · exact .inl ⟨rfl, rfl, fun h => absurd rfl h⟩
  · rename_i c
    split
    · rename_i hk
      refine .inl ⟨rfl, rfl, fun _ e he hid => ?_⟩
      have := List.lookup_eq_none_iff.mp hk e he
      simp [hid] at this
    · rename_i kd hk
      refine .inr ⟨kd, c, ?_, rfl, rfl, rfl⟩
      obtain ⟨l₁, l₂, hl, -⟩ := List.lookup_eq_some_iff.mp hk
      rw [hl]; simp

theorem package_spec {kd : KeyData} {c : Cert} {p : Pkg} (h : package kd c = some p) :
    p.key = kd.key ∧ p.cert = c ∧ p.password = kd.password ∧
    ((kd.format = "gpg".toList ∧ p.ctype = "application/octet-stream".toList ∧
        p.file = hexText c.serial ++ ".pem.gpg".toList) ∨
      (kd.format = "p12".toList ∧ p.ctype = "application/x-pkcs12".toList ∧
        p.file = hexText c.serial ++ ".p12".toList)) := by
  unfold package at h
  dsimp only at h
  split at h
  · rename_i hf; cases h; exact ⟨rfl, rfl, rfl, .inl ⟨hf, rfl, rfl⟩⟩
  · split at h
    · rename_i hf; cases h; exact ⟨rfl, rfl, rfl, .inr ⟨hf, rfl, rfl⟩⟩
    · cases h

theorem inv_answer {w : World} {base : Nat} (h : Inv w base) {i : Nat} {cert : Option Cert} {r : Run}
    (hi : w.runs[i]? = some r) (hr : r.phase = .fetching) : Inv (answer w i cert r) base := by
  have hok := h.runs i r hi
  have hbase : base ≤ i := by
    rcases Nat.lt_or_ge i base with hb | hb
    · have := hok.gone hb; rw [hr] at this; cases this
    · exact hb
  obtain ⟨n2, n3⟩ := hok.fetching hr
  have hcases := response_cases w.mem r.count cert
  have hmem : (answer w i cert r).mem = (makeResponse w.mem r.count cert).1 := rfl
  have hruns : (answer w i cert r).runs =
      w.runs.set i { r with phase := .over, cert := cert, out := (makeResponse w.mem r.count cert).2 } := rfl
  have hcount : (answer w i cert r).count = w.count := rfl
  generalize makeResponse w.mem r.count cert = res at hcases hmem hruns
  have hlen : (answer w i cert r).runs.length = w.runs.length := by rw [hruns, List.length_set]
  generalize answer w i cert r = w' at *
  -- the key in memory, if there is one
  have mine : ∀ kd, (r.count, kd) ∈ w.mem.keys → Kept r kd := by
    intro kd hk
    obtain ⟨j, q, hj, hb, -, -, hq, hkept⟩ := h.mem _ hk
    have : j = i := h.counts hj hi hb hbase hq
    subst this
    rw [hi] at hj; cases hj
    exact hkept
  have sub : ∀ e ∈ w'.mem.keys, e ∈ w.mem.keys := by
    intro e he
    rcases hcases with ⟨h1, -⟩ | ⟨kd, c, -, -, h3, -⟩
    · rw [hmem, h1] at he; exact he
    · rw [hmem, h3] at he; exact (List.mem_filter.mp he).1
  have hfresh : w'.mem.fresh = w.mem.fresh := by
    rcases hcases with ⟨h1, -⟩ | ⟨kd, c, -, -, h3, -⟩
    · rw [hmem, h1]
    · rw [hmem, h3]
  have others : ∀ e ∈ w.mem.keys, e.1 ≠ r.count → e ∈ w'.mem.keys := by
    intro e he hne
    rcases hcases with ⟨h1, -⟩ | ⟨kd, c, -, -, h3, -⟩
    · rw [hmem, h1]; exact he
    · rw [hmem, h3]; exact List.mem_filter.mpr ⟨he, by simpa using hne⟩
  have cleared : cert ≠ none → ∀ e ∈ w'.mem.keys, e.1 ≠ r.count := by
    intro hc e he
    rcases hcases with ⟨h1, -, h2⟩ | ⟨kd, c, -, -, h3, -⟩
    · exact h2 hc e (sub e he)
    · rw [hmem, h3] at he; simpa using (List.mem_filter.mp he).2
  have newout : ∀ p, res.2 = some p → ∃ kd c, (r.count, kd) ∈ w.mem.keys ∧ cert = some c ∧ package kd c = some p := by
    intro p hp
    rcases hcases with ⟨-, h2, -⟩ | ⟨kd, c, h1, h2, -, h4⟩
    · rw [h2] at hp; cases hp
    · exact ⟨kd, c, h1, h2, by rw [← h4]; exact hp⟩
  have hk := keys_kept (w' := w') (base' := base) (i := 0) h (by
    intro j k hk
    refine .inl ?_
    cases hk with
    | csr q c hj hc e =>
      rw [hruns] at hj
      rcases get_set hj with ⟨rfl, rfl⟩ | ⟨-, hj⟩
      · exact .csr r c hi hc e
      · exact .csr q c hj hc e
    | out q p hj hc e =>
      rw [hruns] at hj
      rcases get_set hj with ⟨rfl, rfl⟩ | ⟨-, hj⟩
      · obtain ⟨kd, c, m1, m2, m3⟩ := newout p hc
        exact .mem r kd hi hbase m1 (by rw [← e]; exact (package_spec m3).1.symm)
      · exact .out q p hj hc e
    | mem q kd hj hb hc e =>
      rw [hruns] at hj
      rcases get_set hj with ⟨rfl, rfl⟩ | ⟨-, hj⟩
      · exact .mem r kd hi hb (sub _ hc) e
      · exact .mem q kd hj hb (sub _ hc) e) (by omega)
  refine ⟨by rw [hlen]; exact h.low, by rw [hlen, hcount]; exact h.count, ?_, ?_, ?_, hk.1, hk.2.1, hk.2.2⟩
  · intro a x ha
    rw [hruns] at ha
    rcases get_set ha with ⟨rfl, rfl⟩ | ⟨-, ha⟩
    · refine ⟨hok.idx, fun _ => rfl, fun hp => (nomatch hp), fun hp => (nomatch hp), fun p hp => ?_⟩
      obtain ⟨kd, c, m1, m2, m3⟩ := newout p hp
      obtain ⟨s1, s2, s3, s4⟩ := package_spec m3
      have hkd := mine kd m1
      refine ⟨by rw [s2]; exact m2, fun c hc => by rw [s1]; exact hkd.key c hc, by rw [s3]; exact hkd.password,
        by rw [s3, hkd.password]; exact hkd.protects, ?_⟩
      rw [s2, ← hkd.format]; exact s4
    · exact h.runs a x ha
  · intro e he
    obtain ⟨j, q, hj, hb, hp, hn, hq, hkept⟩ := h.mem e (sub e he)
    by_cases hji : j = i
    · subst hji
      rw [hi] at hj; cases hj
      have hcn : cert = none := by
        cases cert with
        | none => rfl
        | some c => exact absurd hq.symm (cleared (by simp) e he)
      exact ⟨j, { r with phase := .over, cert := cert, out := res.2 }, by rw [hruns]; exact set_get hi, hb,
        fun hp => (nomatch hp), hcn, hq,
        ⟨hkept.password, hkept.protects, hkept.format, hkept.key⟩⟩
    · exact ⟨j, q, by rw [hruns]; exact set_other hji hj, hb, hp, hn, hq, hkept⟩
  · intro a x c ha hb hc hn
    rw [hruns] at ha
    rcases get_set ha with ⟨rfl, rfl⟩ | ⟨hne, ha⟩
    · obtain ⟨kd, m1, m2⟩ := h.wait a r c hi hb hc n2
      refine ⟨kd, ?_, m2⟩
      have hcn : cert = none := hn
      rcases hcases with ⟨h1, -, h2⟩ | ⟨kd', c', -, h2, -, -⟩
      · rw [hmem, h1]; exact m1
      · rw [hcn] at h2; cases h2
    · obtain ⟨kd, m1, m2⟩ := h.wait a x c ha hb hc hn
      exact ⟨kd, others _ m1 (fun e => hne (h.counts ha hi hb hbase e)), m2⟩

theorem inv_step {w : World} {base : Nat} (h : Inv w base) (lower : Str → Str) (ev : Event) :
    Inv (step lower w ev) (if ev = .restart then w.runs.length else base) := by
  cases ev with
  | post f => exact inv_post h f lower
  | read i ok =>
    rw [if_neg (by simp)]
    unfold step
    dsimp only
    split
    · rename_i r hr
      split
      · rename_i hp; exact inv_read h lower hr hp
      · exact h
    · exact h
  | answer i cert =>
    rw [if_neg (by simp)]
    unfold step
    dsimp only
    split
    · rename_i r hr
      split
      · rename_i hp; exact inv_answer h hr hp
      · exact h
    · exact h
  | restart => exact inv_restart h lower

theorem inv_life {w : World} {base : Nat} (h : Inv w base) (lower : Str → Str) (evs : List Event)
    (hn : Event.restart ∉ evs) : Inv (run lower evs w) base := by
  induction evs generalizing w with
  | nil => exact h
  | cons e evs ih =>
    have := inv_step h lower e
    rw [if_neg (fun he => hn (by simp [he]))] at this
    exact ih this fun hm => hn (by simp [hm])

theorem inv_run (lower : Str → Str) (evs : List Event) : ∃ base, Inv (run lower evs init) base := by
  have : ∀ w base, Inv w base → ∃ base, Inv (run lower evs w) base := by
    induction evs with
    | nil => exact fun w base h => ⟨base, h⟩
    | cons e evs ih => exact fun w base h => ih _ _ (inv_step h lower e)
  exact this _ _ inv_init

/-! ## Claims -/

/-- C145. Whatever is posted, in whichever order things happen, and whatever the server answers: what a
run lets the user download is protected with the password of its own form, in the format of that form, and
has the key of its own request. If the server is honest, that is the key of the certificate. -/
theorem package_own (lower : Str → Str) (evs : List Event) (i : Nat) (r : Run) (p : Pkg)
    (hi : (run lower evs init).runs[i]? = some r) (hp : r.out = some p) :
    Own r p ∧ (Honest r → p.key = p.cert.pub) := by
  obtain ⟨base, h⟩ := inv_run lower evs
  have ho := (h.runs i r hi).out p hp
  refine ⟨ho, fun hh => ?_⟩
  obtain ⟨c, hc, hpub⟩ := hh _ ho.cert
  rw [hpub]; exact ho.key c hc

/-- C145 (no reuse). No two runs use the same key: neither in what is downloaded, nor in what is sent. -/
theorem keys_not_shared (lower : Str → Str) (evs : List Event) (i j : Nat) (r q : Run) (hij : i ≠ j)
    (hi : (run lower evs init).runs[i]? = some r) (hj : (run lower evs init).runs[j]? = some q) :
    (∀ p p', r.out = some p → q.out = some p' → p.key ≠ p'.key) ∧
    (∀ c c', r.csr = some c → q.csr = some c' → c.pub ≠ c'.pub) ∧
    (∀ p c, r.out = some p → q.csr = some c → p.key ≠ c.pub) := by
  obtain ⟨base, h⟩ := inv_run lower evs
  refine ⟨fun p p' hp hp' e => ?_, fun c c' hc hc' e => ?_, fun p c hp hc e => ?_⟩
  · exact hij (h.uniq i j p.key (.out r p hi hp rfl) (.out q p' hj hp' e.symm))
  · exact hij (h.uniq i j c.pub (.csr r c hi hc rfl) (.csr q c' hj hc' e.symm))
  · exact hij (h.uniq i j p.key (.out r p hi hp rfl) (.csr q c hj hc e.symm))

/-- C145 (forgotten). After the server has sent a certificate, the key is no longer in memory. Missing: the
same after it has sent something else. -/
theorem forgotten_partial (lower : Str → Str) (evs : List Event) (i : Nat) (r : Run) (c : Csr)
    (hi : (run lower evs init).runs[i]? = some r) (hc : r.csr = some c) (hcert : r.cert ≠ none) :
    ∀ e ∈ (run lower evs init).mem.keys, e.2.key ≠ c.pub := by
  obtain ⟨base, h⟩ := inv_run lower evs
  intro e he hk
  obtain ⟨j, q, hj, hb, -, hn, hq, -⟩ := h.mem e he
  have hm : (q.count, e.2) ∈ (run lower evs init).mem.keys := by rw [hq]; exact he
  have := h.uniq i j c.pub (.csr r c hi hc rfl) (.mem q e.2 hj hb hm hk)
  subst this
  rw [hi] at hj; cases hj
  exact hcert hn

/-- C145 (violated). If the server does not send a certificate, key and password stay in memory, whatever
happens next, until the browser stops the worker. -/
theorem forgotten_violated (lower : Str → Str) (before after : List Event) (f : Form) (hn : Event.restart ∉ after)
    (r : Run) (c : Csr)
    (hi : (run lower (before ++ .post f :: after) init).runs[(run lower before init).runs.length]? = some r)
    (hc : r.csr = some c) (hcert : r.cert = none) :
    ∃ e ∈ (run lower (before ++ .post f :: after) init).mem.keys,
      e.2.key = c.pub ∧ e.2.password = r.form.password ∧ r.form.password ≠ [] := by
  obtain ⟨base, h⟩ := inv_run lower before
  have e1 : run lower (before ++ .post f :: after) init = run lower after (step lower (run lower before init) (.post f)) := by
    unfold run; rw [List.foldl_append, List.foldl_cons]
  rw [e1] at hi ⊢
  have h2 := inv_life (inv_post h f lower) lower after hn
  obtain ⟨kd, m1, m2⟩ := h2.wait _ r c hi h.low hc hcert
  obtain ⟨j, q, hj, hb, -, -, hq, hkept⟩ := h2.mem _ m1
  have := h2.counts hj hi hb h.low hq
  subst this
  rw [hi] at hj; cases hj
  exact ⟨_, m1, m2, hkept.password, hkept.protects⟩

/-- C145 (violated). With a format other than the two that are known, the server has issued a certificate
and there is no key: it is neither downloaded nor in memory. -/
theorem key_lost_violated (lower : Str → Str) (evs : List Event) (i : Nat) (r : Run) (c : Csr)
    (hi : (run lower evs init).runs[i]? = some r) (hc : r.csr = some c) (hcert : r.cert ≠ none)
    (h1 : formatOf r.form ≠ "gpg".toList) (h2 : formatOf r.form ≠ "p12".toList) :
    r.out = none ∧ ∀ e ∈ (run lower evs init).mem.keys, e.2.key ≠ c.pub := by
  refine ⟨?_, forgotten_partial lower evs i r c hi hc hcert⟩
  cases ho : r.out with
  | none => rfl
  | some p =>
    rcases (package_own lower evs i r p hi ho).1.format with h | h
    · exact absurd h.1 h1
    · exact absurd h.1 h2

/-- C145 (works). With one of the two formats a certificate is packaged: the run ends with a download. -/
theorem package_made (lower : Str → Str) (evs : List Event) (i : Nat) (r : Run) (c : Csr) (cert : Cert)
    (hi : (run lower evs init).runs[i]? = some r) (hp : r.phase = .fetching) (hc : r.csr = some c)
    (hf : formatOf r.form = "gpg".toList ∨ formatOf r.form = "p12".toList) :
    ∃ q p, (run lower (evs ++ [.answer i (some cert)]) init).runs[i]? = some q ∧ q.out = some p ∧
      p.key = c.pub ∧ p.cert = cert := by
  obtain ⟨base, h⟩ := inv_run lower evs
  have e1 : run lower (evs ++ [.answer i (some cert)]) init =
      step lower (run lower evs init) (.answer i (some cert)) := by
    unfold run; rw [List.foldl_append]; rfl
  rw [e1]
  generalize run lower evs init = w at hi h
  have hb : base ≤ i := by
    rcases Nat.lt_or_ge i base with hb | hb
    · have := (h.runs i r hi).gone hb; rw [hp] at this; cases this
    · exact hb
  obtain ⟨kd, m1, m2⟩ := h.wait i r c hi hb hc ((h.runs i r hi).fetching hp).1
  have hstep : step lower w (.answer i (some cert)) = answer w i (some cert) r := by
    unfold step; dsimp only; rw [hi]; dsimp only; rw [if_pos hp]
  rw [hstep]
  cases hl : w.mem.keys.lookup r.count with
  | none =>
    have := List.lookup_eq_none_iff.mp hl _ m1
    simp at this
  | some kd' =>
    have hm' : (r.count, kd') ∈ w.mem.keys := by
      obtain ⟨l₁, l₂, e, -⟩ := List.lookup_eq_some_iff.mp hl
      rw [e]; simp
    have hk : kd'.key = c.pub := by
      rw [← m2]; exact h.same i _ _ (.mem r kd' hi hb hm' rfl) (.mem r kd hi hb m1 rfl)
    have hfmt : kd'.format = formatOf r.form := by
      obtain ⟨j, q, hj, hbj, -, -, hq, hkept⟩ := h.mem _ hm'
      have := h.counts hj hi hbj hb hq
      subst this
      rw [hi] at hj; cases hj
      exact hkept.format
    have hres : makeResponse w.mem r.count (some cert) =
        ({ w.mem with keys := w.mem.keys.filter (fun e => e.1 ≠ r.count) }, package kd' cert) := by
      unfold makeResponse; dsimp only; rw [hl]
    have hpkg : ∃ p, package kd' cert = some p := by
      unfold package
      dsimp only
      rw [hfmt]
      split
      · exact ⟨_, rfl⟩
      · rename_i hne
        rw [if_pos (hf.resolve_left hne)]
        exact ⟨_, rfl⟩
    obtain ⟨p, hpk⟩ := hpkg
    obtain ⟨s1, s2, -⟩ := package_spec hpk
    refine ⟨_, p, set_get hi, ?_, by rw [s1, hk], s2⟩
    show (makeResponse w.mem r.count (some cert)).2 = some p
    rw [hres, hpk]

/-! ## Names -/

namespace Spec

/-- A name: not empty, without blanks and commas. -/
def Name (n : Str) : Prop := n ≠ [] ∧ ∀ c ∈ n, space c = false ∧ c ≠ ','

/-- What may stand between two names. -/
def gap (c : Char) : Bool := space c || c = ','

end Spec

theorem fields_name (w s : Str) (hw : ∀ c ∈ w, space c = false) (n : Str) (hn : n ∈ fieldsFrom w s) :
    n ≠ [] ∧ (∀ c ∈ n, space c = false) ∧ ∀ c ∈ n, c ∈ w ++ s := by
  induction s generalizing w with
  | nil =>
    unfold fieldsFrom at hn
    split at hn
    · cases hn
    · rename_i hne
      cases List.mem_singleton.mp hn
      exact ⟨hne, hw, fun c hc => List.mem_append_left _ hc⟩
  | cons c s ih =>
    unfold fieldsFrom at hn
    split at hn
    · split at hn
      · obtain ⟨h1, h2, h3⟩ := ih [] (fun _ h => (nomatch h)) hn
        refine ⟨h1, h2, fun x hx => ?_⟩
        have := h3 x hx
        simp at this ⊢; exact .inr (.inr this)
      · rename_i hne
        rcases List.mem_cons.mp hn with rfl | hn
        · exact ⟨hne, hw, fun c hc => List.mem_append_left _ hc⟩
        · obtain ⟨h1, h2, h3⟩ := ih [] (fun _ h => (nomatch h)) hn
          refine ⟨h1, h2, fun x hx => ?_⟩
          have := h3 x hx
          simp at this ⊢; exact .inr (.inr this)
    · rename_i hsp
      obtain ⟨h1, h2, h3⟩ := ih (w ++ [c]) (by
        intro x hx
        rcases List.mem_append.mp hx with hx | hx
        · exact hw x hx
        · cases List.mem_singleton.mp hx; simpa using hsp) hn
      refine ⟨h1, h2, fun x hx => ?_⟩
      have := h3 x hx
      rw [List.append_assoc] at this
      exact this

theorem fields_flatten (w s : Str) : (fieldsFrom w s).flatten = w ++ s.filter (fun c => !space c) := by
  induction s generalizing w with
  | nil =>
    unfold fieldsFrom
    split
    · rename_i h; rw [h]; rfl
    · simp
  | cons c s ih =>
    unfold fieldsFrom
    split
    · rename_i hs
      rw [List.filter_cons_of_neg (by simpa using hs)]
      split
      · rename_i hw; rw [ih, hw]
      · rw [List.flatten_cons, ih, List.nil_append]
    · rename_i hs
      rw [List.filter_cons_of_pos (by simpa using hs), ih, List.append_assoc]
      rfl

theorem fields_word (w v s : Str) (hv : ∀ c ∈ v, space c = false) : fieldsFrom w (v ++ s) = fieldsFrom (w ++ v) s := by
  induction v generalizing w with
  | nil => simp
  | cons c v ih =>
    have hc := hv c (by simp)
    rw [List.cons_append, fieldsFrom, if_neg (by simp [hc]), ih _ fun x hx => hv x (by simp [hx])]
    simp

theorem fields_gap (g s : Str) (hg : ∀ c ∈ g, space c = true) : fieldsFrom [] (g ++ s) = fieldsFrom [] s := by
  induction g with
  | nil => rfl
  | cons c g ih =>
    rw [List.cons_append, fieldsFrom, if_pos (hg c (by simp)), if_pos rfl, ih fun x hx => hg x (by simp [hx])]

theorem fields_gap' (w g s : Str) (hw : w ≠ []) (h0 : g ≠ []) (hg : ∀ c ∈ g, space c = true) :
    fieldsFrom w (g ++ s) = w :: fieldsFrom [] s := by
  cases g with
  | nil => exact absurd rfl h0
  | cons c g =>
    rw [List.cons_append, fieldsFrom, if_pos (hg c (by simp)), if_neg hw, fields_gap g s fun x hx => hg x (by simp [hx])]

/-- Names with something between them. -/
def spread : List (Str × Str) → Str
  | [] => []
  | (n, g) :: l => n ++ g ++ spread l

theorem fields_spread (l : List (Str × Str)) (hn : ∀ e ∈ l, e.1 ≠ [] ∧ ∀ c ∈ e.1, space c = false)
    (hg : ∀ e ∈ l, e.2 ≠ [] ∧ ∀ c ∈ e.2, space c = true) : fieldsFrom [] (spread l) = l.map (·.1) := by
  induction l with
  | nil => rfl
  | cons e l ih =>
    obtain ⟨n, g⟩ := e
    obtain ⟨n1, n2⟩ := hn (n, g) (by simp)
    obtain ⟨g1, g2⟩ := hg (n, g) (by simp)
    show fieldsFrom [] (n ++ g ++ spread l) = _
    rw [List.append_assoc, fields_word _ _ _ n2, List.nil_append, fields_gap' _ _ _ n1 g1 g2,
      ih (fun e he => hn e (by simp [he])) (fun e he => hg e (by simp [he]))]
    rfl

theorem comma_space (c : Char) : space (if c = ',' then ' ' else c) = Spec.gap c := by
  unfold Spec.gap
  split
  · rename_i h; rw [h]; decide +kernel
  · rename_i h; simp [h]

/-- What counts as a blank in Unicode: from tab to carriage return, the spaces of all widths, and the two
separators of lines and paragraphs. -/
theorem blank_exact (c : Char) :
    space c = true ↔ (9 ≤ c.toNat ∧ c.toNat ≤ 13) ∨ (0x2000 ≤ c.toNat ∧ c.toNat ≤ 0x200a) ∨
      c.toNat = 0x2028 ∨ c.toNat = 0x2029 ∨
      c ∈ [' ', '\u0085', '\u00a0', '\u1680', '\u202f', '\u205f', '\u3000'] := by
  have e : ∀ d : Char, c = d ↔ c.toNat = d.toNat := fun d =>
    ⟨fun h => by rw [h], fun h => Char.ext (UInt32.toNat_inj.mp h)⟩
  have l : ∀ n : Nat, n ∈ [9, 10, 11, 12, 13, 32, 0x85, 0xA0, 0x1680, 0x2028, 0x2029, 0x202f, 0x205f, 0x3000] ↔
      n = 9 ∨ n = 10 ∨ n = 11 ∨ n = 12 ∨ n = 13 ∨ n = 32 ∨ n = 0x85 ∨ n = 0xA0 ∨ n = 0x1680 ∨ n = 0x2028 ∨
        n = 0x2029 ∨ n = 0x202f ∨ n = 0x205f ∨ n = 0x3000 := by
    intro n; simp
  unfold space
  rw [Bool.or_eq_true, List.contains_iff_mem, l, Bool.and_eq_true, decide_eq_true_iff, decide_eq_true_iff]
  simp only [List.mem_cons, List.not_mem_nil, or_false, e]
  have h1 : ' '.toNat = 32 := rfl
  have h2 : '\u0085'.toNat = 0x85 := rfl
  have h3 : '\u00a0'.toNat = 0xa0 := rfl
  have h4 : '\u1680'.toNat = 0x1680 := rfl
  have h5 : '\u202f'.toNat = 0x202f := rfl
  have h6 : '\u205f'.toNat = 0x205f := rfl
  have h7 : '\u3000'.toNat = 0x3000 := rfl
  rw [h1, h2, h3, h4, h5, h6, h7]
  omega

/-- C145 (no request). Without a password, for a kind of key that is not known, or if the request cannot be
made, no request is sent; for everything else one is, for the names of the form. -/
theorem request_exact (lower : Str → Str) (m : Mem) (i : Nat) (f : Form) (ok : Bool) :
    (makeRequest lower m i f ok).2 =
      if f.password = [] ∨ generateKey lower (Spec.keytypeOf f) = none ∨ ok = false then none
      else some ⟨m.fresh, f.label, dnsNames f.dnsname⟩ := by
  have hk : (if f.keytype = [] then "ecdsa-p256".toList else f.keytype) = Spec.keytypeOf f := rfl
  unfold makeRequest
  dsimp only
  rw [hk]
  by_cases hp : f.password = []
  · rw [if_pos hp, if_pos (.inl hp)]
  · rw [if_neg hp]
    unfold makeCSR
    dsimp only
    cases hg : generateKey lower (Spec.keytypeOf f) with
    | none => simp
    | some k => cases ok <;> simp [hp]

/-- C145 (names, nothing else). Every name in a request is a name, and together they are the text of the
form without blanks and commas: nothing is added, left out, or put in another order. -/
theorem names_exact (s : Str) :
    (∀ n ∈ dnsNames s, Spec.Name n) ∧ (dnsNames s).flatten = s.filter (fun c => !Spec.gap c) := by
  unfold dnsNames
  split
  · have hmap : ((s.map fun c => if c = ',' then ' ' else c).filter fun c => !space c) = s.filter (fun c => !Spec.gap c) := by
      induction s with
      | nil => rfl
      | cons c s ih =>
        have ih' : ((s.map fun c => if c = ',' then ' ' else c).filter fun c => !space c) = s.filter (fun c => !Spec.gap c) := by
          by_cases h : s = []
          · rw [h]; rfl
          · exact ih h
        rw [List.map_cons, List.filter_cons, List.filter_cons, comma_space, ih']
        cases hg : Spec.gap c
        · have : c ≠ ',' := by rintro rfl; exact absurd hg (by decide +kernel)
          simp [this]
        · rfl
    refine ⟨fun n hn => ?_, ?_⟩
    · obtain ⟨h1, h2, h3⟩ := fields_name [] _ (fun _ h => (nomatch h)) n hn
      refine ⟨h1, fun c hc => ⟨h2 c hc, ?_⟩⟩
      rintro rfl
      have := h3 _ hc
      rw [List.nil_append, List.mem_map] at this
      obtain ⟨x, -, hx⟩ := this
      split at hx
      · cases hx
      · rename_i hne; exact hne hx
    · unfold fields
      rw [fields_flatten, List.nil_append, hmap]
  · rename_i h
    have : s = [] := Decidable.not_not.mp h
    subst this
    exact ⟨fun n hn => (nomatch hn), rfl⟩

/-- C145 (names, all of them). Names that are separated by blanks or commas are the names of the request;
blanks before them do no harm. -/
theorem names_split (lead : Str) (l : List (Str × Str)) (hlead : ∀ c ∈ lead, Spec.gap c = true)
    (hn : ∀ e ∈ l, Spec.Name e.1) (hg : ∀ e ∈ l, e.2 ≠ [] ∧ ∀ c ∈ e.2, Spec.gap c = true) :
    dnsNames (lead ++ spread l) = l.map (·.1) := by
  have hmap : ∀ l : List (Str × Str), (∀ e ∈ l, Spec.Name e.1) →
      (spread l).map (fun c => if c = ',' then ' ' else c) =
        spread (l.map fun e => (e.1, e.2.map fun c => if c = ',' then ' ' else c)) := by
    intro l hn
    induction l with
    | nil => rfl
    | cons e l ih =>
      obtain ⟨n, g⟩ := e
      have h1 : n.map (fun c => if c = ',' then ' ' else c) = n := by
        have := (hn (n, g) (by simp)).2
        conv => rhs; rw [← List.map_id n]
        apply List.map_congr_left
        intro c hc
        rw [if_neg (this c hc).2]; rfl
      show (n ++ g ++ spread l).map _ = n ++ g.map _ ++ spread _
      rw [List.map_append, List.map_append, h1, ih fun e he => hn e (by simp [he])]
  have hgap : ∀ g : Str, (∀ c ∈ g, Spec.gap c = true) → ∀ c ∈ g.map (fun c => if c = ',' then ' ' else c), space c = true := by
    intro g hg c hc
    obtain ⟨x, hx, rfl⟩ := List.mem_map.mp hc
    rw [comma_space]; exact hg x hx
  unfold dnsNames
  split
  · unfold fields
    rw [List.map_append, fields_gap _ _ (hgap lead hlead), hmap l hn, fields_spread]
    · rw [List.map_map]; rfl
    · intro e he
      obtain ⟨x, hx, rfl⟩ := List.mem_map.mp he
      exact ⟨(hn x hx).1, fun c hc => ((hn x hx).2 c hc).1⟩
    · intro e he
      obtain ⟨x, hx, rfl⟩ := List.mem_map.mp he
      refine ⟨fun h => (hg x hx).1 (List.map_eq_nil_iff.mp h), hgap _ (hg x hx).2⟩
  · rename_i h
    have := List.append_eq_nil_iff.mp (Decidable.not_not.mp h)
    cases l with
    | nil => rfl
    | cons e l =>
      obtain ⟨n, g⟩ := e
      have h2 : n ++ g ++ spread l = [] := this.2
      rw [List.append_assoc] at h2
      exact absurd (List.append_eq_nil_iff.mp h2).1 (hn (n, g) (by simp)).1

/-! ## Kinds of keys -/

namespace Spec

/-- The kinds of keys that the page offers (certs.html), and what they are. -/
def offered : List (Str × KeyKind) :=
  [("ecdsa-p224".toList, .ecdsa 224), ("ecdsa-p256".toList, .ecdsa 256), ("ecdsa-p384".toList, .ecdsa 384),
   ("ecdsa-p521".toList, .ecdsa 521), ("ed25519".toList, .ed25519), ("rsa-2048".toList, .rsa 2048),
   ("rsa-3072".toList, .rsa 3072), ("rsa-4096".toList, .rsa 4096)]

end Spec

/-- C145 (kinds, no others). Keys are made for the kinds that the page offers and for RSA with 8192 bits, as their
names say, and for no other name. -/
theorem kind_exact (lower : Str → Str) (t : Str) (k : KeyKind) :
    generateKey lower t = some k ↔ (lower t, k) ∈ Spec.offered ++ [("rsa-8192".toList, .rsa 8192)] := by
  have key : ∀ (l : List (Str × KeyKind)) (x : Str), (l.map (·.1)).Nodup → (l.lookup x = some k ↔ (x, k) ∈ l) := by
    intro l x hl
    induction l with
    | nil => simp
    | cons e l ih =>
      obtain ⟨a, b⟩ := e
      rw [List.map_cons, List.nodup_cons] at hl
      rw [List.lookup_cons]
      by_cases hx : x = a
      · subst hx
        simp only [beq_self_eq_true, List.mem_cons, Prod.mk.injEq, true_and, Option.some.injEq]
        constructor
        · rintro rfl; exact .inl rfl
        · rintro (h | h)
          · exact h.symm
          · exact absurd (List.mem_map.mpr ⟨_, h, rfl⟩) hl.1
      · rw [beq_false_of_ne hx]
        simp only [List.mem_cons, Prod.mk.injEq, hx, false_and, false_or]
        exact ih hl.2
  rw [← key _ _ (by decide +kernel)]
  have e : ∀ x : Str, generateKey id x = (Spec.offered ++ [("rsa-8192".toList, KeyKind.rsa 8192)]).lookup x := by
    intro x
    unfold generateKey Spec.offered
    dsimp only [id, List.cons_append, List.nil_append]
    simp only [List.lookup_cons, List.lookup_nil]
    repeat' split
    all_goals first
      | rfl
      | (simp_all; done)
      | (exfalso; simp_all; done)
  exact Iff.of_eq (congrArg (· = some k) (e (lower t)))

theorem generate_offered : ∀ e ∈ Spec.offered, generateKey id e.1 = some e.2 := by decide +kernel

theorem offered_ne : ∀ e ∈ Spec.offered, e.1 ≠ [] := by decide +kernel

/-- C145 (kinds). For each kind of key that the page offers, a key of this kind is made and a request is sent
with the label and the names of the form; without a choice it is ECDSA with 256 bits. -/
theorem kind_asked (m : Mem) (i : Nat) (f : Form) (hp : f.password ≠ []) (k : KeyKind)
    (hk : (f.keytype, k) ∈ Spec.offered ∨ f.keytype = [] ∧ k = .ecdsa 256) :
    ∃ kd, (i, kd) ∈ (makeRequest id m i f true).1.keys ∧ kd.kind = k ∧
      (makeRequest id m i f true).2 = some { pub := kd.key, cn := f.label, dns := dnsNames f.dnsname } := by
  have hgen : generateKey id (if f.keytype = [] then "ecdsa-p256".toList else f.keytype) = some k := by
    rcases hk with hk | ⟨h1, rfl⟩
    · rw [if_neg (offered_ne _ hk)]; exact generate_offered _ hk
    · rw [if_pos h1]; exact generate_offered ("ecdsa-p256".toList, .ecdsa 256) (by decide +kernel)
  unfold makeRequest
  dsimp only
  rw [if_neg hp]
  unfold makeCSR
  dsimp only
  rw [hgen]
  exact ⟨_, List.mem_cons_self, rfl, rfl⟩

/-! ## The name of the file -/

namespace Spec

/-- Letters and digits that cannot end a quoted string, a header, or a path. -/
def Plain (c : Char) : Prop := c ∈ "0123456789abcdef".toList

end Spec

theorem hexDigit_plain (n : Nat) (h : n < 16) : Spec.Plain (hexDigit n) := by
  unfold Spec.Plain
  revert n
  decide +kernel

/-- C145 (file). The name of the file is the serial number in hexadecimal digits, two for each byte, and
the ending of its format; so the header that carries it has no other quotes than the two around it. -/
theorem file_name (lower : Str → Str) (evs : List Event) (i : Nat) (r : Run) (p : Pkg)
    (hi : (run lower evs init).runs[i]? = some r) (hp : r.out = some p) (hb : ∀ b ∈ p.cert.serial, b < 256) :
    ∃ sn ext, p.file = sn ++ ext ∧ sn.length = 2 * p.cert.serial.length ∧ (∀ c ∈ sn, Spec.Plain c) ∧
      (ext = ".pem.gpg".toList ∨ ext = ".p12".toList) ∧
      disposition p = "attachment; filename=\"".toList ++ p.file ++ "\"".toList ∧ '"' ∉ p.file ∧ '/' ∉ p.file := by
  have hplain : ∀ c ∈ hexText p.cert.serial, Spec.Plain c := by
    intro c hc
    unfold hexText at hc
    obtain ⟨n, hn, hc⟩ := List.mem_flatMap.mp hc
    have := hb n hn
    rcases List.mem_cons.mp hc with rfl | hc
    · exact hexDigit_plain _ (by omega)
    · cases List.mem_singleton.mp hc
      exact hexDigit_plain _ (by omega)
  have hlen : ∀ b : List Nat, (hexText b).length = 2 * b.length := by
    intro b
    induction b with
    | nil => rfl
    | cons x b ih =>
      have : hexText (x :: b) = [hexDigit (x / 16), hexDigit (x % 16)] ++ hexText b := rfl
      rw [this, List.length_append, ih]
      simp only [List.length_cons, List.length_nil]; omega
  have q1 : ¬ Spec.Plain '"' := by unfold Spec.Plain; decide +kernel
  have q2 : ¬ Spec.Plain '/' := by unfold Spec.Plain; decide +kernel
  have notin : ∀ ext : Str, '"' ∉ ext → '/' ∉ ext → p.file = hexText p.cert.serial ++ ext → '"' ∉ p.file ∧ '/' ∉ p.file := by
    intro ext e1 e2 hf
    rw [hf]
    refine ⟨fun h => ?_, fun h => ?_⟩ <;> rcases List.mem_append.mp h with h | h
    · exact q1 (hplain _ h)
    · exact e1 h
    · exact q2 (hplain _ h)
    · exact e2 h
  rcases (package_own lower evs i r p hi hp).1.format with ⟨-, -, hf⟩ | ⟨-, -, hf⟩
  · exact ⟨_, _, hf, hlen _, hplain, .inl rfl, rfl, notin _ (by decide +kernel) (by decide +kernel) hf⟩
  · exact ⟨_, _, hf, hlen _, hplain, .inr rfl, rfl, notin _ (by decide +kernel) (by decide +kernel) hf⟩

/-! ## Examples -/

namespace Example

def id' : Str → Str := id

def one : Form := { keytype := "ecdsa-p384".toList, format := "p12".toList, label := "laptop".toList,
                    dnsname := "a.example.com, b.example.com".toList, password := "secret".toList }

def two : Form := { keytype := [], format := [], label := "phone".toList, dnsname := [], password := "other".toList }

def odd : Form := { two with format := "zip".toList }

/-- Two forms at the same time; the second is answered first. -/
def both : List Event := [.post one, .post two, .read 1 true, .read 0 true, .answer 1 (some ⟨0, [18, 171]⟩),
  .answer 0 (some ⟨1, [255]⟩)]

example : (run id' both init).runs.map (·.out) =
    [some ⟨1, ⟨1, [255]⟩, "secret".toList, "application/x-pkcs12".toList, "ff.p12".toList⟩,
     some ⟨0, ⟨0, [18, 171]⟩, "other".toList, "application/octet-stream".toList, "12ab.pem.gpg".toList⟩] := by
  decide +kernel

example : ((run id' both init).runs.map fun r => r.csr.map (·.dns)) =
    [some ["a.example.com".toList, "b.example.com".toList], some []] := by decide +kernel

example : (run id' both init).mem.keys = [] := by decide +kernel

/-- The server refuses: the key and the password are still there, after another run too. -/
def refused : List Event := [.post one, .read 0 true, .answer 0 none, .post two, .read 1 true, .answer 1 (some ⟨1, [1]⟩)]

example : (run id' refused init).mem.keys = [(1, ⟨0, .ecdsa 384, "p12".toList, "secret".toList⟩)] := by decide +kernel

/-- A format that is not known: a certificate, no download and no key. -/
def lost : List Event := [.post odd, .read 0 true, .answer 0 (some ⟨0, [7]⟩)]

example : (run id' lost init).mem.keys = [] ∧
    (run id' lost init).runs.map (fun r => (r.cert, r.out)) = [(some ⟨0, [7]⟩, none)] := by decide +kernel

example : dnsNames (" ,".toList ++ spread [("a".toList, ", ".toList), ("b.c".toList, "\n".toList)]) =
    ["a".toList, "b.c".toList] := by decide +kernel

example : Spec.Name "a.example.com".toList := ⟨by decide +kernel, by decide +kernel⟩

end Example

end Verif.ClientKeys
