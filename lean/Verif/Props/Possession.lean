import Verif.Model.Possession
import Verif.Props.PemRead
/-!
# C173: certificates are issued for keys whose holders asked for them
-/
namespace Verif.Possession

open Verif.Path (Str)

namespace Spec

/-- `made key raw`: the holder of the key has signed the request. Signatures cannot be forged, and those that were made are good. -/
def Sound (e : Env) (made : Nat → List Nat → Prop) : Prop :=
  ∀ raw cr, e.parse raw = some cr → (e.check raw = true ↔ made cr.key raw)

/-- A request of someone who is logged in with this address, as the page sends them. -/
structure Proper (p : Post) (email : Str) : Prop where
  claims : p.claims = some (some email)
  method : p.method = "POST".toList
  csrf : p.csrf = "1".toList
  ctype : p.ctype = "application/x-pem-file".toList

end Spec

theorem validate_iff {e : Env} {made : Nat → List Nat → Prop} (hs : Spec.Sound e made) {raw : List Nat} {cr : Csr} :
    validate e raw = some cr ↔ e.parse raw = some cr ∧ made cr.key raw := by
  unfold validate
  cases hp : e.parse raw with
  | none => simp
  | some cr' =>
    dsimp only
    by_cases hc : e.check raw = true
    · rw [if_pos hc]
      constructor
      · intro h
        injection h with h
        subst h
        exact ⟨rfl, (hs _ _ hp).1 hc⟩
      · exact fun h => h.1
    · rw [if_neg hc]
      constructor
      · intro h
        cases h
      · rintro ⟨h1, h2⟩
        injection h1 with h1
        subst h1
        exact absurd ((hs _ _ hp).2 h2) hc

/-- C173. A certificate is issued exactly to those who are logged in and send, as the page does, a body whose first block is a
request that the holder of its key has signed. It is for this key, and has the address of the login and no other. -/
theorem possession {e : Env} {made : Nat → List Nat → Prop} (hs : Spec.Sound e made) (p : Post) (c : Issued) :
    handle e p = .issue c ↔
      ∃ email type raw rest s cr, p.claims = some email ∧ p.method = "POST".toList ∧ p.csrf = "1".toList ∧
        p.ctype = "application/x-pem-file".toList ∧ p.body = some s ∧ Pem.decode s = some ((type, raw), rest) ∧
        e.parse raw = some cr ∧ made cr.key raw ∧ c.key = cr.key ∧ c.emails = [email.getD []] ∧ c.dns = cr.dns ∧
        c.cn = email.getD [] ++ (if cr.cn = [] then [] else "::".toList ++ cr.cn) := by
  have cn : ∀ (email : Str) (cr : Csr), (template email cr).cn = email ++ (if cr.cn = [] then [] else "::".toList ++ cr.cn) := by
    intro email cr
    unfold template
    by_cases h : cr.cn = []
    · simp [h]
    · simp [h]
  constructor
  · intro h
    unfold handle at h
    cases hc : p.claims with
    | none => rw [hc] at h; cases h
    | some email =>
      rw [hc] at h
      dsimp only at h
      by_cases h1 : p.method ≠ "POST".toList
      · rw [if_pos h1] at h; cases h
      rw [if_neg h1] at h
      by_cases h2 : p.csrf ≠ "1".toList
      · rw [if_pos h2] at h; cases h
      rw [if_neg h2] at h
      by_cases h3 : p.ctype ≠ "application/x-pem-file".toList
      · rw [if_pos h3] at h; cases h
      rw [if_neg h3] at h
      unfold handleBody at h
      cases hb : p.body with
      | none => rw [hb] at h; cases h
      | some s =>
        rw [hb] at h
        dsimp only at h
        cases hd : Pem.decode s with
        | none => rw [hd] at h; cases h
        | some r =>
          obtain ⟨⟨type, raw⟩, rest⟩ := r
          rw [hd] at h
          dsimp only at h
          cases hv : validate e raw with
          | none => rw [hv] at h; cases h
          | some cr =>
            rw [hv] at h
            injection h with h
            obtain ⟨v1, v2⟩ := (validate_iff hs).1 hv
            refine ⟨email, type, raw, rest, s, cr, rfl, Decidable.not_not.1 h1, Decidable.not_not.1 h2, Decidable.not_not.1 h3, rfl,
              hd, v1, v2, ?_⟩
            subst h
            exact ⟨rfl, rfl, rfl, cn _ _⟩
  · rintro ⟨email, type, raw, rest, s, cr, h0, h1, h2, h3, h4, h5, h6, h7, k1, k2, k3, k4⟩
    unfold handle
    rw [h0]
    dsimp only
    rw [if_neg (fun h => h h1), if_neg (fun h => h h2), if_neg (fun h => h h3), h4]
    unfold handleBody
    dsimp only
    rw [h5]
    dsimp only
    rw [(validate_iff hs).2 ⟨h6, h7⟩]
    dsimp only
    obtain ⟨ck, cc, ce, cd⟩ := c
    dsimp only at k1 k2 k3 k4
    rw [k1, k2, k3, k4, ← cn]
    rfl

/-- C173. The request that the page makes is understood: the certificate is for the key of the browser. -/
theorem own_request {e : Env} {made : Nat → List Nat → Prop} (hs : Spec.Sound e made) {cut : Str → List Str} (hc : Pem.Spec.Cuts cut)
    {p : Post} {email : Str} (hp : Spec.Proper p email) {raw : List Nat} (hb : OcspHttp.Spec.Bytes raw)
    (hbody : p.body = some (makeCSR cut raw)) {cr : Csr} (h : e.parse raw = some cr) (hm : made cr.key raw) :
    ∃ c, handle e p = .issue c ∧ c.key = cr.key ∧ c.emails = [email] := by
  have hl : Pem.Spec.Label "CERTIFICATE REQUEST".toList := by
    unfold Pem.Spec.Label
    decide
  have hf := Pem.block_file hc "CERTIFICATE REQUEST".toList hb .nil
  rw [List.append_nil] at hf
  have hd : Pem.decode (makeCSR cut raw) = some (("CERTIFICATE REQUEST".toList, raw), []) := by
    unfold makeCSR
    generalize ht : Pem.encodeBlock cut "CERTIFICATE REQUEST".toList raw = t at hf
    cases hf with
    | cons h1 h2 =>
      cases h2
      exact Pem.block_read hl hb h1
  exact ⟨_, (possession hs p ⟨cr.key, email ++ (if cr.cn = [] then [] else "::".toList ++ cr.cn), [email], cr.dns⟩).2 ⟨some email, _, raw, _, _, cr, hp.claims, hp.method, hp.csrf, hp.ctype, hbody, hd, h, hm, rfl, rfl, rfl, rfl⟩,
    rfl, rfl⟩

/-- C173, violated: a request does not say for whom it was made. Whoever has seen the request of someone else gets a certificate with
their own address for the key of the other. -/
theorem other_violated {e : Env} {p q : Post} {email : Str} {c : Issued} (h : handle e p = .issue c) (hq : Spec.Proper q email)
    (hb : q.body = p.body) : ∃ c', handle e q = .issue c' ∧ c'.key = c.key ∧ c'.emails = [email] := by
  have hs : Spec.Sound e fun _ raw => e.check raw = true := fun _ _ _ => Iff.rfl
  obtain ⟨_, type, raw, rest, s, cr, -, -, -, -, h4, h5, h6, h7, k1, -⟩ := (possession hs p c).1 h
  exact ⟨_, (possession hs q ⟨cr.key, email ++ (if cr.cn = [] then [] else "::".toList ++ cr.cn), [email], cr.dns⟩).2 ⟨some email, type, raw, rest, s, cr, hq.claims, hq.method, hq.csrf, hq.ctype, hb.trans h4, h5, h6, h7, rfl, rfl,
      rfl, rfl⟩, k1.symm, rfl⟩

/-- A world with one signed request, of the key 7. -/
def exEnv : Env := { parse := fun b => if b = [48, 0] then some ⟨7, "laptop".toList, []⟩ else none, check := fun b => b = [48, 0] }

def exPost (email : String) : Post :=
  { claims := some (some email.toList), method := "POST".toList, csrf := "1".toList, ctype := "application/x-pem-file".toList,
    body := some (makeCSR (fun s => [s]) [48, 0]) }

example : Spec.Sound exEnv fun k b => k = 7 ∧ b = [48, 0] := by
  intro raw cr h
  unfold exEnv at *
  dsimp only at *
  split at h
  · injection h with h
    subst h
    simp
  · cases h

example : handle exEnv (exPost "a@example.com") = .issue ⟨7, "a@example.com::laptop".toList, ["a@example.com".toList], []⟩ ∧
    handle exEnv (exPost "b@example.com") = .issue ⟨7, "b@example.com::laptop".toList, ["b@example.com".toList], []⟩ := by decide +kernel

end Verif.Possession
