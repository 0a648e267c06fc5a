import Verif.Model.Memory
import Verif.Model.Oidc
import Verif.Model.Saml
import Verif.Model.Login
import Verif.Model.Passkey
import Verif.Props.Config
import Verif.Props.Oidc

/-
What clients make the proxy remember is bounded: by the configuration, the certificates and the users
for events and metrics, whatever names clients ask for; and by what was begun within the lifetime of an
entry for codes, tokens, challenges and logins.

The last part does not hold for logins: a login that is begun is kept until somebody comes back from the
identity provider, and with SAML until the provider has signed an assertion.
-/
namespace Verif.Memory

open Verif.Config (Table Route route lookupProtos lookupProtos_eq)

/-! ## Events and metrics -/

namespace Spec

/-- What is recorded without regard to the connection's name. -/
def always : List String :=
  ["tcp connection", "too many open connections", "invalid ClientHello", "no SNI", "unexpected SNI", "backend shutdown"]

/-- All names of a configuration. -/
def Names (t : Table) (ns : List String) : Prop := ∀ n p i, t n p = some i → n ∈ ns

end Spec

theorem record_keys (m : List (String × Nat)) (s : String) :
    (record m s).map (·.1) = if s ∈ m.map (·.1) then m.map (·.1) else m.map (·.1) ++ [s] := by
  induction m with
  | nil => rfl
  | cons x m ih =>
    obtain ⟨k, n⟩ := x
    rw [record]
    split
    · rename_i h; subst h; simp
    · rename_i h
      rw [List.map_cons, ih]
      by_cases hs : s ∈ m.map (·.1)
      · rw [if_pos hs, if_pos (by rw [List.map_cons]; exact List.mem_cons_of_mem _ hs)]; rfl
      · rw [if_neg hs, if_neg]
        · rfl
        · rw [List.map_cons, List.mem_cons]
          rintro (e | e)
          · exact h e.symm
          · exact hs e

theorem record_nodup {m : List (String × Nat)} {s : String} (h : (m.map (·.1)).Nodup) :
    ((record m s).map (·.1)).Nodup := by
  rw [record_keys]
  split
  · exact h
  · rename_i hs
    rw [List.nodup_append]
    exact ⟨h, by simp, fun a ha b hb => by rintro rfl; simp only [List.mem_singleton] at hb; exact hs (hb ▸ ha)⟩

theorem record_lookup (m : List (String × Nat)) (s x : String) :
    (record m s).lookup x = if x = s then some ((m.lookup x).getD 0 + 1) else m.lookup x := by
  induction m with
  | nil =>
    rw [record, List.lookup_cons]
    by_cases h : x = s
    · simp [h]
    · have hb : (x == s) = false := beq_eq_false_iff_ne.mpr h
      simp [h, hb]
  | cons y m ih =>
    obtain ⟨k, n⟩ := y
    rw [record]
    by_cases hk : k = s
    · subst hk
      rw [if_pos rfl, List.lookup_cons, List.lookup_cons]
      by_cases h : x = k
      · subst h; simp
      · have hb : (x == k) = false := beq_eq_false_iff_ne.mpr h
        simp [h, hb]
    · rw [if_neg hk, List.lookup_cons, List.lookup_cons, ih]
      by_cases h : x = k
      · subst h; simp [hk]
      · have hb : (x == k) = false := beq_eq_false_iff_ne.mpr h
        simp only [hb]

theorem fold_nodup (l : List String) : ∀ m : List (String × Nat), (m.map (·.1)).Nodup →
    ((l.foldl record m).map (·.1)).Nodup := by
  induction l with
  | nil => exact fun _ h => h
  | cons s l ih => exact fun m h => ih _ (record_nodup h)

theorem fold_keys (l : List String) : ∀ (m : List (String × Nat)) (x : String),
    x ∈ (l.foldl record m).map (·.1) → x ∈ m.map (·.1) ∨ x ∈ l := by
  induction l with
  | nil => exact fun _ _ h => .inl h
  | cons s l ih =>
    intro m x h
    rcases ih _ x h with h | h
    · rw [record_keys] at h
      split at h
      · exact .inl h
      · rcases List.mem_append.mp h with h | h
        · exact .inl h
        · simp only [List.mem_singleton] at h; subst h; exact .inr (by simp)
    · exact .inr (by simp [h])

theorem fold_count (l : List String) (x : String) : ∀ (m : List (String × Nat)),
    ((l.foldl record m).lookup x).getD 0 = (m.lookup x).getD 0 + l.count x := by
  induction l with
  | nil => intro m; simp
  | cons s l ih =>
    intro m
    rw [List.foldl_cons, ih, record_lookup, List.count_cons]
    by_cases h : x = s
    · subst h; simp; omega
    · have : ¬ s = x := fun e => h e.symm
      simp [h, this]

theorem run_events (as : List Arrival) : ∀ s : State, (run s as).events = (as.flatMap fun a => (seen a).1).foldl record s.events := by
  induction as with
  | nil => exact fun _ => rfl
  | cons a as ih =>
    intro s
    rw [List.flatMap_cons, List.foldl_append]
    exact ih (step s a)

/-- The numbers on the console are true: each event is listed once, with how often it was recorded. -/
theorem events_counted (as : List Arrival) (x : String) :
    (((run ⟨[], []⟩ as).events.map (·.1)).Nodup) ∧
    ((run ⟨[], []⟩ as).events.lookup x).getD 0 = (as.flatMap fun a => (seen a).1).count x := by
  rw [run_events]
  exact ⟨fold_nodup _ _ List.nodup_nil, by rw [fold_count]; simp⟩

theorem route_name {t : Table} {down : Nat → Bool} {n : String} {ps : List String} {i : Nat}
    (h : route t down n ps = .to i) : ∃ p j, t n p = some j := by
  unfold route at h
  split at h
  · exact (nomatch h)
  · rename_i j hj
    split at hj
    · rename_i k hk
      rw [lookupProtos_eq] at hk
      obtain ⟨p, _, hp⟩ := List.exists_of_findSome?_eq_some hk
      exact ⟨p, k, hp⟩
    · exact ⟨"", j, hj⟩

theorem seen_known (a : Arrival) (ns : List String) (ks : List Kind) (hn : Spec.Names a.table ns)
    (hk : ∀ k ∈ a.after, k ∈ ks) :
    (∀ x ∈ (seen a).1, x ∈ Spec.always ++ ns.flatMap fun n => ks.map (Kind.text n)) ∧
    (∀ n ∈ (seen a).2, n ∈ ns) := by
  have hf : ∀ sni : String, ∀ x ∈ (if sni = "" then ["tcp connection", "no SNI"] else ["tcp connection"] : List String),
      x ∈ Spec.always := by
    intro sni x hx
    split at hx
    · simp only [List.mem_cons, List.not_mem_nil, or_false] at hx
      rcases hx with rfl | rfl <;> simp [Spec.always]
    · simp only [List.mem_cons, List.not_mem_nil, or_false] at hx
      subst hx; simp [Spec.always]
  have fixed : ∀ l : List String, (∀ x ∈ l, x ∈ Spec.always) →
      (∀ x ∈ l, x ∈ Spec.always ++ ns.flatMap fun n => ks.map (Kind.text n)) :=
    fun l h x hx => List.mem_append_left _ (h x hx)
  unfold seen
  split
  · exact ⟨fixed _ (by decide), fun _ h => (nomatch h)⟩
  · split
    · exact ⟨fixed _ (by decide), fun _ h => (nomatch h)⟩
    · rename_i sni protos hh
      dsimp only
      split
      · refine ⟨fixed _ fun x hx => ?_, fun _ h => (nomatch h)⟩
        rcases List.mem_append.mp hx with h | h
        · exact hf _ x h
        · simp only [List.mem_singleton] at h; subst h; simp [Spec.always]
      · refine ⟨fixed _ fun x hx => ?_, fun _ h => (nomatch h)⟩
        rcases List.mem_append.mp hx with h | h
        · exact hf _ x h
        · simp only [List.mem_singleton] at h; subst h; simp [Spec.always]
      · rename_i i hr
        obtain ⟨p, j, hp⟩ := route_name hr
        have hname := hn _ _ _ hp
        refine ⟨fun x hx => ?_, fun n h => ?_⟩
        · rcases List.mem_append.mp hx with h | h
          · exact List.mem_append_left _ (hf _ x h)
          · obtain ⟨k, hka, rfl⟩ := List.mem_map.mp h
            exact List.mem_append_right _ (List.mem_flatMap.mpr ⟨_, hname, List.mem_map.mpr ⟨k, hk k hka, rfl⟩⟩)
        · obtain rfl : _ = n := by simpa using h
          exact hname

theorem flat_length (ns : List String) (ks : List Kind) :
    (ns.flatMap fun n => ks.map (Kind.text n)).length = ns.length * ks.length := by
  induction ns with
  | nil => simp
  | cons n ns ih => rw [List.flatMap_cons, List.length_append, ih, List.length_map, List.length_cons, Nat.succ_mul]; omega

/-- C139 (events and metrics). However many clients come and whatever names they ask for, the number of
events and of names with metrics is bounded by the names of the configurations and by what can be said
about a connection to one of them. -/
theorem events_bounded (as : List Arrival) (ns : List String) (ks : List Kind)
    (hn : ∀ a ∈ as, Spec.Names a.table ns) (hk : ∀ a ∈ as, ∀ k ∈ a.after, k ∈ ks) :
    (run ⟨[], []⟩ as).events.length ≤ 6 + ns.length * ks.length ∧
    (run ⟨[], []⟩ as).metrics.length ≤ ns.length := by
  constructor
  · have h1 := (events_counted as "").1
    have h2 : ∀ x ∈ (run ⟨[], []⟩ as).events.map (·.1), x ∈ Spec.always ++ ns.flatMap fun n => ks.map (Kind.text n) := by
      intro x hx
      rw [run_events] at hx
      rcases fold_keys _ _ x hx with h | h
      · exact (nomatch h)
      · obtain ⟨a, ha, hx⟩ := List.mem_flatMap.mp h
        exact (seen_known a ns ks (hn a ha) (hk a ha)).1 x hx
    have := h1.length_le_of_subset h2
    rw [List.length_map, List.length_append, flat_length] at this
    exact this
  · suffices h : ∀ s : State, s.metrics.Nodup → (∀ n ∈ s.metrics, n ∈ ns) →
        (run s as).metrics.Nodup ∧ ∀ n ∈ (run s as).metrics, n ∈ ns by
      have := h ⟨[], []⟩ List.nodup_nil (fun _ h => (nomatch h))
      exact this.1.length_le_of_subset this.2
    induction as with
    | nil => exact fun s h1 h2 => ⟨h1, h2⟩
    | cons a as ih =>
      intro s h1 h2
      refine ih (fun b hb => hn b (by simp [hb])) (fun b hb => hk b (by simp [hb])) (step s a) ?_ ?_
      · unfold step
        dsimp only
        split
        · exact h1
        · unfold setCounters
          split
          · exact h1
          · rename_i n _ hc
            exact List.nodup_cons.mpr ⟨by simpa using hc, h1⟩
      · unfold step
        dsimp only
        split
        · exact h2
        · rename_i n hs
          have := (seen_known a ns ks (hn a (by simp)) (hk a (by simp))).2 n (by simp [hs])
          unfold setCounters
          split
          · exact h2
          · intro x hx
            rcases List.mem_cons.mp hx with rfl | hx
            · exact this
            · exact h2 x hx

/-! ## Codes and tokens of the OIDC server -/

theorem tbl_del {α : Type} (t : Oidc.Tbl α) (k : Nat) (q : Nat × α → Bool) : (Oidc.Tbl.del t k).countP q ≤ t.countP q := by
  unfold Oidc.Tbl.del
  exact List.Sublist.countP_le List.filter_sublist

theorem tbl_put {α : Type} (t : Oidc.Tbl α) (k : Nat) (v : α) (q : Nat × α → Bool) :
    (Oidc.Tbl.put t k v).countP q ≤ t.countP q + if q (k, v) then 1 else 0 := by
  unfold Oidc.Tbl.put
  rw [List.countP_cons]
  have := tbl_del t k q
  omega

/-- How many authorizations began at a time that matters. -/
def authorizations (q : Nat → Bool) (ops : List Oidc.Server.Op) : Nat :=
  ops.countP fun o => match o with
    | .authorize t _ _ _ _ => q t
    | _ => false

theorem server_step (clients : List Oidc.Server.ClientCfg) (s : Oidc.Server.State) (o : Oidc.Server.Op) (q : Nat → Bool) :
    (Oidc.Server.step clients s o).codes.countP (fun e => q e.2.created) ≤
      s.codes.countP (fun e => q e.2.created) + authorizations q [o] ∧
    (Oidc.Server.step clients s o).access.countP (fun e => q e.2.created) ≤
      s.access.countP (fun e => q e.2.created) + authorizations q [o] := by
  have d1 : ∀ k, (Oidc.Tbl.del s.codes k).countP (fun e => q e.2.created) ≤ s.codes.countP (fun e => q e.2.created) :=
    fun k => tbl_del _ _ _
  have d2 : ∀ k, (Oidc.Tbl.del s.access k).countP (fun e => q e.2.created) ≤ s.access.countP (fun e => q e.2.created) :=
    fun k => tbl_del _ _ _
  cases o with
  | vacuum t =>
    constructor
    · exact Nat.le_trans (List.Sublist.countP_le List.filter_sublist) (Nat.le_add_right ..)
    · exact Nat.le_trans (List.Sublist.countP_le List.filter_sublist) (Nat.le_add_right ..)
  | authorize t r code access claims =>
    have e : authorizations q [.authorize t r code access claims] = if q t then 1 else 0 := by
      simp [authorizations, List.countP_cons]
    rw [e]
    unfold Oidc.Server.step
    dsimp only
    repeat' split
    all_goals first
      | exact ⟨Nat.le_add_right .., Nat.le_add_right ..⟩
      | (constructor
         · have := tbl_put s.codes code { created := t, clientID := r.clientID, access } (fun e => q e.2.created)
           simp_all
         · have := tbl_put s.access access { created := t, clientID := r.clientID, claims } (fun e => q e.2.created)
           simp_all)
  | token t0 r =>
    unfold Oidc.Server.step
    dsimp only
    repeat' split
    all_goals
      first
        | exact ⟨Nat.le_add_right .., Nat.le_add_right ..⟩
        | exact ⟨Nat.le_trans (d1 _) (Nat.le_add_right ..), Nat.le_add_right ..⟩
  | userinfo t0 a =>
    unfold Oidc.Server.step
    dsimp only
    split
    all_goals exact ⟨Nat.le_add_right .., Nat.le_trans (d2 _) (Nat.le_add_right ..)⟩

theorem server_run (clients : List Oidc.Server.ClientCfg) (ops : List Oidc.Server.Op) (q : Nat → Bool) :
    ∀ s : Oidc.Server.State,
    (Oidc.Server.run clients ops s).codes.countP (fun e => q e.2.created) ≤
      s.codes.countP (fun e => q e.2.created) + authorizations q ops ∧
    (Oidc.Server.run clients ops s).access.countP (fun e => q e.2.created) ≤
      s.access.countP (fun e => q e.2.created) + authorizations q ops := by
  induction ops with
  | nil => exact fun s => ⟨Nat.le_refl _, Nat.le_refl _⟩
  | cons o ops ih =>
    intro s
    have h1 := server_step clients s o q
    have h2 := ih (Oidc.Server.step clients s o)
    have e : authorizations q (o :: ops) = authorizations q [o] + authorizations q ops := by
      unfold authorizations
      rw [← List.countP_append]; rfl
    rw [e]
    constructor
    · exact Nat.le_trans h2.1 (by omega)
    · exact Nat.le_trans h2.2 (by omega)

theorem server_append (clients : List Oidc.Server.ClientCfg) (ops : List Oidc.Server.Op) (t : Nat) :
    ∀ s, Oidc.Server.run clients (ops ++ [.vacuum t]) s = Oidc.Server.vacuum t (Oidc.Server.run clients ops s) := by
  induction ops with
  | nil => exact fun _ => rfl
  | cons o ops ih => exact fun s => ih _

/-- C139 (OIDC server). Each request begins by forgetting: then as many codes and access tokens are kept,
at most, as authorizations began in the two minutes before. -/
theorem server_bounded (clients : List Oidc.Server.ClientCfg) (ops : List Oidc.Server.Op) (t : Nat) :
    let s := Oidc.Server.run clients (ops ++ [.vacuum t]) Oidc.Server.init
    s.codes.length ≤ authorizations (fun u => decide (t ≤ u + 120)) ops ∧
    s.access.length ≤ authorizations (fun u => decide (t ≤ u + 120)) ops := by
  have h := server_run clients ops (fun u => decide (t ≤ u + 120)) Oidc.Server.init
  dsimp only
  rw [server_append]
  simp only [Oidc.Server.init, List.countP_nil, Nat.zero_add] at h
  constructor
  · refine Nat.le_trans (Nat.le_of_eq ?_) h.1
    show (List.filter _ _).length = _
    rw [← List.countP_eq_length_filter]
    congr 1
    funext e
    rw [Bool.eq_iff_iff]
    simp
  · refine Nat.le_trans (Nat.le_of_eq ?_) h.2
    show (List.filter _ _).length = _
    rw [← List.countP_eq_length_filter]
    congr 1
    funext e
    rw [Bool.eq_iff_iff]
    simp

/-! ## Challenges of passkeys -/

theorem assoc_del {α : Type} (t : List (Nat × α)) (k : Nat) (q : Nat × α → Bool) : (Assoc.del t k).countP q ≤ t.countP q := by
  unfold Assoc.del
  exact List.Sublist.countP_le List.filter_sublist

theorem assoc_put {α : Type} (t : List (Nat × α)) (k : Nat) (v : α) (q : Nat × α → Bool) :
    (Assoc.put t k v).countP q ≤ t.countP q + if q (k, v) then 1 else 0 := by
  unfold Assoc.put
  rw [List.countP_cons]
  have := assoc_del t k q
  omega

/-- How many challenges were asked for at a time that matters. -/
def asked (q : Nat → Bool) (ops : List Passkey.Op) : Nat :=
  ops.countP fun o => match o with
    | .attOptions _ _ t _ _ _ _ => q t
    | .asrtOptions t _ => q t
    | _ => false

theorem commit_challenges (s : Passkey.State) (c : Passkey.Commit) (db : Passkey.Db) :
    (Passkey.commit s c db).challenges = s.challenges := by
  unfold Passkey.commit
  split <;> rfl

theorem attest_challenges (cfg : Passkey.Cfg) (s : Passkey.State) (page : Passkey.Page) (now t0 : Nat) (claims : Passkey.Claims)
    (host : Passkey.Str) (r : Passkey.AttReq) (c : Passkey.Commit) (q : Nat × Passkey.Challenge → Bool) :
    (Passkey.attest cfg s page now t0 claims host r c).challenges.countP q ≤ s.challenges.countP q := by
  unfold Passkey.attest
  dsimp only
  repeat' split
  all_goals first
    | exact Nat.le_refl _
    | exact assoc_del _ _ _
    | (dsimp only; rw [commit_challenges]; exact assoc_del _ _ _)

theorem assert_challenges (cfg : Passkey.Cfg) (s : Passkey.State) (now t0 : Nat) (token : Option Passkey.Claims)
    (r : Passkey.AsrtReq) (c : Passkey.Commit) (q : Nat × Passkey.Challenge → Bool) :
    (Passkey.assert cfg s now t0 token r c).challenges.countP q ≤ s.challenges.countP q := by
  unfold Passkey.assert
  dsimp only
  repeat' split
  all_goals first
    | exact Nat.le_refl _
    | exact assoc_del _ _ _
    | (dsimp only; rw [commit_challenges]; exact assoc_del _ _ _)
    | (rw [commit_challenges]; exact assoc_del _ _ _)

theorem passkey_step (cfg : Passkey.Cfg) (s : Passkey.State) (o : Passkey.Op) (q : Nat → Bool) :
    (Passkey.step cfg s o).challenges.countP (fun e => q e.2.created) ≤
      s.challenges.countP (fun e => q e.2.created) + asked q [o] := by
  cases o with
  | vacuum t => exact Nat.le_trans (List.Sublist.countP_le List.filter_sublist) (Nat.le_add_right ..)
  | reload => exact Nat.le_add_right ..
  | restart => exact Nat.zero_le _
  | attOptions page now t claims host chal uid =>
    have e : asked q [.attOptions page now t claims host chal uid] = if q t then 1 else 0 := by
      simp [asked, List.countP_cons]
    rw [e]
    unfold Passkey.step Passkey.attOptions
    dsimp only
    repeat' split
    all_goals first
      | exact Nat.le_add_right ..
      | (rename_i u _ _
         have := assoc_put s.challenges chal ⟨t, some claims, u⟩ (fun e => q e.2.created)
         simp_all)
  | asrtOptions t chal =>
    have e : asked q [.asrtOptions t chal] = if q t then 1 else 0 := by simp [asked, List.countP_cons]
    rw [e]
    exact assoc_put s.challenges chal ⟨t, none, 0⟩ (fun e => q e.2.created)
  | attest page now t0 claims host req c =>
    refine Nat.le_trans ?_ (Nat.le_add_right ..)
    unfold Passkey.step
    dsimp only
    repeat' split
    all_goals first
      | exact Nat.le_refl _
      | exact attest_challenges ..
  | assert now t0 token req c => exact Nat.le_trans (assert_challenges ..) (Nat.le_add_right ..)
  | delete now claims host id c =>
    refine Nat.le_trans (Nat.le_of_eq ?_) (Nat.le_add_right ..)
    show ((Passkey.delete cfg s now claims host id c).challenges).countP _ = _
    unfold Passkey.delete
    repeat' split
    all_goals first
      | rfl
      | rw [commit_challenges]

theorem passkey_run (cfg : Passkey.Cfg) (ops : List Passkey.Op) (q : Nat → Bool) :
    ∀ s : Passkey.State, (Passkey.run cfg ops s).challenges.countP (fun e => q e.2.created) ≤
      s.challenges.countP (fun e => q e.2.created) + asked q ops := by
  induction ops with
  | nil => exact fun s => Nat.le_refl _
  | cons o ops ih =>
    intro s
    have h1 := passkey_step cfg s o q
    have h2 := ih (Passkey.step cfg s o)
    have e : asked q (o :: ops) = asked q [o] + asked q ops := by
      unfold asked
      rw [← List.countP_append]; rfl
    rw [e]
    exact Nat.le_trans h2 (by omega)

theorem passkey_append (cfg : Passkey.Cfg) (ops : List Passkey.Op) (t : Nat) :
    ∀ s, Passkey.run cfg (ops ++ [.vacuum t]) s = Passkey.vacuum t (Passkey.run cfg ops s) := by
  induction ops with
  | nil => exact fun _ => rfl
  | cons o ops ih => exact fun s => ih _

/-- C139 (passkeys). Each use of a challenge, and each request for one, begins by forgetting: then as many
are kept, at most, as were asked for in the five minutes before. -/
theorem passkey_bounded (cfg : Passkey.Cfg) (ops : List Passkey.Op) (t : Nat) :
    (Passkey.run cfg (ops ++ [.vacuum t]) Passkey.init).challenges.length ≤
      asked (fun u => decide (t ≤ u + 300)) ops := by
  have h := passkey_run cfg ops (fun u => decide (t ≤ u + 300)) Passkey.init
  rw [passkey_append]
  simp only [Passkey.init, List.countP_nil, Nat.zero_add] at h
  refine Nat.le_trans (Nat.le_of_eq ?_) h
  show (List.filter _ _).length = _
  rw [← List.countP_eq_length_filter]
  congr 1
  funext e
  rw [Bool.eq_iff_iff]
  simp

/-! ## Logins with passkeys -/

/-- How many logins were begun at a time that matters. -/
def loginsBegun (q : Nat → Bool) (ops : List Login.Op) : Nat :=
  ops.countP fun o => match o with
    | .login _ _ _ t => q t
    | .manage _ _ _ _ t => q t
    | _ => false

theorem session_nonces (s : Login.State) (b : Nat) (host : Login.Str) : (Login.session s b host).2.nonces = s.nonces := by
  unfold Login.session
  split <;> rfl

theorem urlToken_nonces (s : Login.State) (b : Nat) (host : Login.Str) (u : Login.Url) (e : Option Login.Str) :
    (Login.urlToken s b host u e).nonces = s.nonces := session_nonces s b host

theorem validate_nonces (s : Login.State) (b : Nat) (host : Login.Str) (tok : Login.Tok) :
    (Login.validateURL s b host tok).2.nonces = s.nonces := by
  unfold Login.validateURL
  split
  · exact session_nonces s b host
  · rfl

theorem login_step (s : Login.State) (o : Login.Op) (q : Nat → Bool) :
    (Login.step s o).nonces.countP (fun n => q n.created) ≤ s.nonces.countP (fun n => q n.created) + loginsBegun q [o] := by
  cases o with
  | ask b host rest hint t =>
    refine Nat.le_trans (Nat.le_of_eq ?_) (Nat.le_add_right ..)
    show (Login.urlToken s b host ⟨host, rest⟩ hint).nonces.countP _ = _
    rw [urlToken_nonces]
  | login b host tok t =>
    have e : loginsBegun q [.login b host tok t] = if q t then 1 else 0 := by simp [loginsBegun, List.countP_cons]
    rw [e]
    have hv := validate_nonces s b host tok
    unfold Login.step
    dsimp only
    split
    · rename_i s' h; rw [h] at hv; rw [← hv]; exact Nat.le_add_right ..
    · rename_i u s' h
      rw [h] at hv
      unfold Login.requestLogin
      dsimp only
      rw [List.countP_cons, ← hv]
      exact Nat.le_refl _
  | manage b host rest hint t =>
    have e : loginsBegun q [.manage b host rest hint t] = if q t then 1 else 0 := by simp [loginsBegun, List.countP_cons]
    rw [e]
    unfold Login.step Login.requestLogin
    dsimp only
    rw [List.countP_cons]
    exact Nat.le_refl _
  | callback b host id t =>
    refine Nat.le_trans ?_ (Nat.le_add_right ..)
    have hs : ((s.nonces.filter fun n => !(decide (n.created + 300 < t))).filter fun n => decide (n.id ≠ id)).countP
        (fun n => q n.created) ≤ s.nonces.countP fun n => q n.created :=
      List.Sublist.countP_le (List.filter_sublist.trans List.filter_sublist)
    unfold Login.step
    dsimp only
    split
    · exact hs
    · dsimp only
      rw [urlToken_nonces]
      exact hs
  | finish b host tok t =>
    refine Nat.le_trans (Nat.le_of_eq ?_) (Nat.le_add_right ..)
    have hv := validate_nonces s b host tok
    unfold Login.step
    dsimp only
    split
    · rename_i s' h; rw [h] at hv; rw [← hv]
    · rename_i u s' h; rw [h] at hv; dsimp only; rw [← hv]
  | forget b host => exact Nat.le_add_right ..

theorem login_run (ops : List Login.Op) (q : Nat → Bool) :
    ∀ s : Login.State, (Login.run ops s).nonces.countP (fun e => q e.created) ≤
      s.nonces.countP (fun e => q e.created) + loginsBegun q ops := by
  induction ops with
  | nil => exact fun s => Nat.le_refl _
  | cons o ops ih =>
    intro s
    have h1 := login_step s o q
    have h2 := ih (Login.step s o)
    have e : loginsBegun q (o :: ops) = loginsBegun q [o] + loginsBegun q ops := by
      unfold loginsBegun
      rw [← List.countP_append]; rfl
    rw [e]
    exact Nat.le_trans h2 (by omega)

theorem login_append (ops : List Login.Op) (o : Login.Op) :
    ∀ s, Login.run (ops ++ [o]) s = Login.step (Login.run ops s) o := by
  induction ops with
  | nil => exact fun _ => rfl
  | cons o ops ih => exact fun s => ih _

/-- C139, for logins with passkeys: whenever somebody comes to the login page, what is kept are at most
the logins begun in the five minutes before. Missing: that anything is forgotten when nobody does. -/
theorem passkey_logins_partial (ops : List Login.Op) (b : Nat) (host : Login.Str) (id t : Nat) :
    (Login.run (ops ++ [.callback b host id t]) Login.init).nonces.length ≤
      loginsBegun (fun u => decide (t ≤ u + 300)) ops := by
  have h := login_run ops (fun u => decide (t ≤ u + 300)) Login.init
  rw [login_append]
  simp only [Login.init, List.countP_nil, Nat.zero_add] at h
  refine Nat.le_trans ?_ h
  have hs : ((((Login.run ops Login.init).nonces.filter fun n => !(decide (n.created + 300 < t))).filter
      fun n => decide (n.id ≠ id))).length ≤
      (Login.run ops Login.init).nonces.countP fun e => decide (t ≤ e.created + 300) := by
    refine Nat.le_trans List.filter_sublist.length_le (Nat.le_of_eq ?_)
    rw [← List.countP_eq_length_filter]
    congr 1
    funext e
    rw [Bool.eq_iff_iff]
    simp
  unfold Login.step
  dsimp only
  split
  · exact hs
  · dsimp only
    rw [urlToken_nonces]
    exact hs

/-- C139 (violated). Until then everything is kept: however many clients ask for the page that manages
passkeys, each one leaves an entry, whatever the time. -/
theorem passkey_logins_violated (l : List (Nat × Login.Str × Login.Str × Nat)) :
    (Login.run (l.map fun x => .manage x.1 x.2.1 x.2.2.1 none x.2.2.2) Login.init).nonces.length = l.length := by
  suffices h : ∀ s : Login.State, (Login.run (l.map fun x => .manage x.1 x.2.1 x.2.2.1 none x.2.2.2) s).nonces.length =
      s.nonces.length + l.length by
    rw [h]; simp [Login.init]
  induction l with
  | nil => exact fun s => rfl
  | cons x l ih =>
    intro s
    refine (ih _).trans ?_
    show (_ :: s.nonces).length + _ = _
    simp only [List.length_cons]
    omega

/-! ## Logins with OpenID Connect -/

/-- How many logins were begun at a time that matters. -/
def requests (q : Nat → Bool) (ops : List Oidc.Client.Op) : Nat :=
  ops.countP fun o => match o with
    | .request _ t _ _ => q t
    | _ => false

theorem tbl_put_same {α : Type} (t : Oidc.Tbl α) (k : Nat) (v w : α) (q : Nat × α → Bool) (h : t.get k = some v)
    (hq : q (k, w) = q (k, v)) : (Oidc.Tbl.put t k w).countP q ≤ t.countP q := by
  induction t with
  | nil => exact (nomatch h)
  | cons e t ih =>
    obtain ⟨k', v'⟩ := e
    unfold Oidc.Tbl.get at h
    rw [List.lookup_cons] at h
    unfold Oidc.Tbl.put Oidc.Tbl.del at *
    rw [List.countP_cons] at *
    by_cases hk : k = k'
    · subst hk
      simp only [beq_self_eq_true, Option.some.injEq] at h
      subst h
      rw [List.filter_cons_of_neg (by simp), List.countP_cons, hq]
      have := tbl_del t k q
      unfold Oidc.Tbl.del at this
      omega
    · have hb : (k == k') = false := beq_eq_false_iff_ne.mpr hk
      simp only [hb] at h
      have ih := ih h
      rw [List.filter_cons_of_pos (by simpa using Ne.symm hk), List.countP_cons, List.countP_cons]
      omega

theorem client_step (cfg : Oidc.Client.Config) (s : Oidc.Client.State) (o : Oidc.Client.Op) (q : Nat → Bool) :
    (Oidc.Client.step cfg s o).states.countP (fun e => q e.2.created) ≤
      s.states.countP (fun e => q e.2.created) + requests q [o] := by
  cases o with
  | request nonce t url host =>
    have e : requests q [.request nonce t url host] = if q t then 1 else 0 := by simp [requests, List.countP_cons]
    rw [e]
    exact tbl_put s.states nonce { created := t, url, host, seen := false } (fun e => q e.2.created)
  | «begin» thread t param cookie =>
    refine Nat.le_trans ?_ (Nat.le_add_right ..)
    have hv : (Oidc.Client.vacuum t s.states).countP (fun e => q e.2.created) ≤ s.states.countP (fun e => q e.2.created) :=
      List.Sublist.countP_le List.filter_sublist
    unfold Oidc.Client.step
    dsimp only
    split
    · exact hv
    · rename_i p hp
      have := tbl_put_same _ param p { p with seen := true } (fun e => q e.2.created) hp rfl
      split
      · exact Nat.le_trans this hv
      · exact Nat.le_trans this hv
  | finish thread a =>
    refine Nat.le_trans ?_ (Nat.le_add_right ..)
    unfold Oidc.Client.step
    dsimp only
    repeat' split
    all_goals first
      | exact Nat.le_refl _
      | exact tbl_del _ _ _

theorem client_run (cfg : Oidc.Client.Config) (ops : List Oidc.Client.Op) (q : Nat → Bool) :
    ∀ s : Oidc.Client.State, (Oidc.Client.run cfg ops s).states.countP (fun e => q e.2.created) ≤
      s.states.countP (fun e => q e.2.created) + requests q ops := by
  induction ops with
  | nil => exact fun s => Nat.le_refl _
  | cons o ops ih =>
    intro s
    have h1 := client_step cfg s o q
    have h2 := ih (Oidc.Client.step cfg s o)
    have e : requests q (o :: ops) = requests q [o] + requests q ops := by
      unfold requests
      rw [← List.countP_append]; rfl
    rw [e]
    exact Nat.le_trans h2 (by omega)

theorem client_append (cfg : Oidc.Client.Config) (ops : List Oidc.Client.Op) (o : Oidc.Client.Op) :
    ∀ s, Oidc.Client.run cfg (ops ++ [o]) s = Oidc.Client.step cfg (Oidc.Client.run cfg ops s) o := by
  induction ops with
  | nil => exact fun _ => rfl
  | cons o ops ih => exact fun s => ih _

/-- C139, for logins with OpenID Connect: whenever somebody comes to the callback, with whatever state,
what is kept are at most the logins begun in the five minutes before. Missing: that anything is forgotten
when nobody does. -/
theorem oidc_logins_partial (cfg : Oidc.Client.Config) (ops : List Oidc.Client.Op) (thread t param : Nat)
    (cookie : Option Nat) :
    (Oidc.Client.run cfg (ops ++ [.begin thread t param cookie]) Oidc.Client.init).states.length ≤
      requests (fun u => decide (t ≤ u + 300)) ops := by
  have h := client_run cfg ops (fun u => decide (t ≤ u + 300)) Oidc.Client.init
  rw [client_append]
  simp only [Oidc.Client.init, List.countP_nil, Nat.zero_add] at h
  refine Nat.le_trans ?_ h
  show _ ≤ (Oidc.Client.run cfg ops Oidc.Client.init).states.countP _
  generalize Oidc.Client.run cfg ops Oidc.Client.init = s
  have hv : (Oidc.Client.vacuum t s.states).length = s.states.countP (fun e => decide (t ≤ e.2.created + 300)) := by
    unfold Oidc.Client.vacuum
    rw [← List.countP_eq_length_filter]
    congr 1
    funext e
    rw [Bool.eq_iff_iff]
    simp
  rw [← hv]
  unfold Oidc.Client.step
  dsimp only
  split
  · exact Nat.le_refl _
  · rename_i p hp
    have := tbl_put_same _ param p { p with seen := true } (fun _ => true) hp rfl
    simp only [List.countP_true] at this
    split
    · exact this
    · exact this

theorem tbl_del_absent {α : Type} (t : Oidc.Tbl α) (k : Nat) (h : k ∉ t.map (·.1)) : Oidc.Tbl.del t k = t := by
  unfold Oidc.Tbl.del
  rw [List.filter_eq_self]
  intro e he
  have : e.1 ≠ k := fun hk => h (hk ▸ List.mem_map_of_mem he)
  simpa using this

/-- C139 (violated). Until then everything is kept: each request for a login leaves an entry, however many
there are and whatever the time. -/
theorem oidc_logins_violated (cfg : Oidc.Client.Config) (l : List (Nat × Nat × Token.Str × Token.Str))
    (hn : (l.map (·.1)).Nodup) :
    (Oidc.Client.run cfg (l.map fun x => .request x.1 x.2.1 x.2.2.1 x.2.2.2) Oidc.Client.init).states.length = l.length := by
  suffices h : ∀ s : Oidc.Client.State, (∀ x ∈ l, x.1 ∉ s.states.map (·.1)) →
      (Oidc.Client.run cfg (l.map fun x => .request x.1 x.2.1 x.2.2.1 x.2.2.2) s).states.length =
        s.states.length + l.length by
    rw [h _ (fun _ _ => by simp [Oidc.Client.init])]; simp [Oidc.Client.init]
  induction l with
  | nil => exact fun s _ => rfl
  | cons x l ih =>
    intro s hs
    rw [List.map_cons, List.nodup_cons] at hn
    have e : (Oidc.Client.step cfg s (.request x.1 x.2.1 x.2.2.1 x.2.2.2)).states =
        (x.1, ⟨x.2.1, x.2.2.1, x.2.2.2, false⟩) :: s.states := by
      show _ :: Oidc.Tbl.del s.states x.1 = _
      rw [tbl_del_absent _ _ (hs x (by simp))]
    refine (ih hn.2 _ ?_).trans ?_
    · intro y hy hm
      rw [e, List.map_cons, List.mem_cons] at hm
      rcases hm with hm | hm
      · exact hn.1 (hm ▸ List.mem_map_of_mem hy)
      · exact hs y (by simp [hy]) hm
    · rw [e]; simp only [List.length_cons]; omega

/-! ## Logins with SAML -/

/-- How many logins were begun at a time that matters. -/
def samlRequests (q : Nat → Bool) (ops : List Saml.Op) : Nat :=
  ops.countP fun o => match o with
    | .request _ _ t _ _ => q t
    | _ => false

theorem saml_del (l : List (Nat × Saml.Pending)) (k : Nat) (q : Nat × Saml.Pending → Bool) :
    (Saml.del l k).countP q ≤ l.countP q := by
  unfold Saml.del
  exact List.Sublist.countP_le List.filter_sublist

theorem saml_step (cfg : Saml.Config) (validate : Nat → Option Saml.Assertion) (s : Saml.State) (o : Saml.Op) (q : Nat → Bool) :
    (Saml.step cfg validate s o).states.countP (fun e => q e.2.created) ≤
      s.states.countP (fun e => q e.2.created) + samlRequests q [o] := by
  cases o with
  | request b id t url host =>
    have e : samlRequests q [.request b id t url host] = if q t then 1 else 0 := by simp [samlRequests, List.countP_cons]
    rw [e]
    show List.countP _ (_ :: Saml.del s.states id) ≤ _
    rw [List.countP_cons]
    have := saml_del s.states id (fun e => q e.2.created)
    exact Nat.add_le_add_right this _
  | callback b doc post t now =>
    refine Nat.le_trans ?_ (Nat.le_add_right ..)
    have hv : (Saml.vacuum t s.states).countP (fun e => q e.2.created) ≤ s.states.countP (fun e => q e.2.created) :=
      List.Sublist.countP_le List.filter_sublist
    unfold Saml.step
    dsimp only
    repeat' split
    all_goals first
      | exact Nat.le_refl _
      | exact hv
      | exact Nat.le_trans (saml_del _ _ _) hv

theorem saml_run (cfg : Saml.Config) (validate : Nat → Option Saml.Assertion) (ops : List Saml.Op) (q : Nat → Bool) :
    ∀ s : Saml.State, (Saml.run cfg validate ops s).states.countP (fun e => q e.2.created) ≤
      s.states.countP (fun e => q e.2.created) + samlRequests q ops := by
  induction ops with
  | nil => exact fun s => Nat.le_refl _
  | cons o ops ih =>
    intro s
    have h1 := saml_step cfg validate s o q
    have h2 := ih (Saml.step cfg validate s o)
    have e : samlRequests q (o :: ops) = samlRequests q [o] + samlRequests q ops := by
      unfold samlRequests
      rw [← List.countP_append]; rfl
    rw [e]
    exact Nat.le_trans h2 (by omega)

theorem saml_append (cfg : Saml.Config) (validate : Nat → Option Saml.Assertion) (ops : List Saml.Op) (o : Saml.Op) :
    ∀ s, Saml.run cfg validate (ops ++ [o]) s = Saml.step cfg validate (Saml.run cfg validate ops s) o := by
  induction ops with
  | nil => exact fun _ => rfl
  | cons o ops ih => exact fun s => ih _

/-- C139, for logins with SAML: whenever somebody brings an assertion that the identity provider has
signed, what is kept are at most the logins begun in the five minutes before. Missing: that anything is
forgotten when nobody does. -/
theorem saml_logins_partial (cfg : Saml.Config) (validate : Nat → Option Saml.Assertion) (ops : List Saml.Op)
    (b doc t now : Nat) (a : Saml.Assertion) (hv : validate doc = some a) :
    (Saml.run cfg validate (ops ++ [.callback b doc true t now]) Saml.init).states.length ≤
      samlRequests (fun u => decide (t ≤ u + 300)) ops := by
  have h := saml_run cfg validate ops (fun u => decide (t ≤ u + 300)) Saml.init
  rw [saml_append]
  simp only [Saml.init, List.countP_nil, Nat.zero_add] at h
  refine Nat.le_trans ?_ h
  show _ ≤ (Saml.run cfg validate ops Saml.init).states.countP _
  generalize Saml.run cfg validate ops Saml.init = s
  have hl : (Saml.vacuum t s.states).length = s.states.countP (fun e => decide (t ≤ e.2.created + 300)) := by
    unfold Saml.vacuum
    rw [← List.countP_eq_length_filter]
    congr 1
    funext e
    rw [Bool.eq_iff_iff]
    simp
  have hd : ∀ k, (Saml.del (Saml.vacuum t s.states) k).length ≤ (Saml.vacuum t s.states).length :=
    fun k => List.filter_sublist.length_le
  rw [← hl]
  unfold Saml.step
  dsimp only
  rw [hv]
  dsimp only
  repeat' split
  all_goals first
    | exact Nat.le_refl _
    | exact hd _
    | (rename_i h0; exact absurd h0 (by decide))

/-- The identifiers of the logins that were begun. -/
def samlIds : List Saml.Op → List Nat
  | [] => []
  | .request _ id _ _ _ :: ops => id :: samlIds ops
  | .callback _ _ _ _ _ :: ops => samlIds ops

/-- C139 (violated). As long as the identity provider signs nothing, everything is kept: each request for
a login leaves an entry, and answers that are not signed do not change that, whatever the time. -/
theorem saml_logins_violated (cfg : Saml.Config) (validate : Nat → Option Saml.Assertion) (ops : List Saml.Op)
    (hv : ∀ b doc post t now, .callback b doc post t now ∈ ops → validate doc = none)
    (hn : (samlIds ops).Nodup) :
    (Saml.run cfg validate ops Saml.init).states.length = samlRequests (fun _ => true) ops := by
  suffices h : ∀ s : Saml.State,
      (∀ id ∈ samlIds ops, id ∉ s.states.map (·.1)) →
      (Saml.run cfg validate ops s).states.length = s.states.length + samlRequests (fun _ => true) ops by
    rw [h _ (fun _ _ => by simp [Saml.init])]; simp [Saml.init]
  induction ops with
  | nil => exact fun s _ => rfl
  | cons o ops ih =>
    intro s hs
    have ih := ih (fun b doc post t now h => hv b doc post t now (by simp [h]))
    cases o with
    | request b id t url host =>
      rw [samlIds] at hn hs
      rw [List.nodup_cons] at hn
      have e : (Saml.step cfg validate s (.request b id t url host)).states = (id, ⟨t, url, host⟩) :: s.states := by
        show _ :: Saml.del s.states id = _
        unfold Saml.del
        rw [List.filter_eq_self.mpr]
        intro x hx
        have : x.1 ≠ id := fun hk => hs id (by simp) (hk ▸ List.mem_map_of_mem hx)
        simpa using this
      refine (ih hn.2 _ ?_).trans ?_
      · intro y hy hm
        rw [e, List.map_cons, List.mem_cons] at hm
        rcases hm with hm | hm
        · have hm : y = id := hm
          exact hn.1 (hm ▸ hy)
        · exact hs y (List.mem_cons_of_mem _ hy) hm
      · rw [e]
        unfold samlRequests
        rw [List.countP_cons_of_pos rfl]
        simp only [List.length_cons]
        omega
    | callback b doc post t now =>
      rw [samlIds] at hn hs
      have e : Saml.step cfg validate s (.callback b doc post t now) = s := by
        unfold Saml.step
        dsimp only
        rw [hv b doc post t now (by simp)]
        split <;> rfl
      show (Saml.run cfg validate ops (Saml.step cfg validate s _)).states.length = _
      rw [e, ih hn s hs]
      unfold samlRequests
      rw [List.countP_cons_of_neg (by simp)]

/-! ## Examples -/

namespace Ex

def table : Table := fun n p => if n = "a" ∧ p = "" then some 0 else none

/-- A denied connection, twice; a name that nobody knows; no name; nonsense. -/
def arrivals : List Arrival :=
  [⟨table, fun _ => false, "a", false, some ("a", []), [.checkIP "access denied"]⟩,
   ⟨table, fun _ => false, "a", false, some ("x", ["h2"]), []⟩,
   ⟨table, fun _ => false, "a", false, some ("y", ["h2"]), []⟩,
   ⟨table, fun _ => false, "a", false, some ("", []), [.checkIP "access denied"]⟩,
   ⟨table, fun _ => false, "a", false, none, []⟩,
   ⟨table, fun _ => false, "a", true, none, []⟩]

def saml : Saml.Config := ⟨"https://a/acs".toList, "a".toList⟩

def signed (n : Nat) : Option Saml.Assertion :=
  if n = 1 then some ⟨some 7, "https://a/acs".toList, "https://a/".toList, some 0, some 9000, "u".toList⟩ else none

end Ex

example : Spec.Names Ex.table ["a"] ∧ (∀ a ∈ Ex.arrivals, ∀ k ∈ a.after, k ∈ [Kind.checkIP "access denied"]) ∧
    (run ⟨[], []⟩ Ex.arrivals).metrics = ["a"] ∧ (run ⟨[], []⟩ Ex.arrivals).events =
      [("tcp connection", 6), ("a CheckIP access denied", 2), ("unexpected SNI", 2), ("no SNI", 1), ("invalid ClientHello", 1),
       ("too many open connections", 1)] := by
  refine ⟨?_, by decide +kernel, by decide +kernel, by decide +kernel⟩
  intro n p i h
  unfold Ex.table at h
  split at h
  · rename_i e; simp [e.1]
  · exact (nomatch h)

example : (Oidc.Server.run Oidc.Server.Ex.cl [.authorize 1 Oidc.Server.Ex.ar 5 50 [], .authorize 100 Oidc.Server.Ex.ar 6 60 [], .vacuum 122]
    Oidc.Server.init).codes.map (·.1) = [6] := by decide +kernel

example (cfg : Passkey.Cfg) : (Passkey.run cfg [.asrtOptions 1 5, .asrtOptions 200 6, .vacuum 302] Passkey.init).challenges.map (·.1) = [6] := by
  rfl

/-- Two hours later an entry is gone only because somebody came back. -/
example : (Login.run [.manage 1 "a".toList [] none 0, .manage 2 "a".toList [] none 7200] Login.init).nonces.length = 2 ∧
    (Login.run [.manage 1 "a".toList [] none 0, .manage 2 "a".toList [] none 7200, .callback 3 "a".toList 99 7201]
      Login.init).nonces.length = 1 := by decide +kernel

example : (Oidc.Client.run ⟨[], true⟩ [.request 1 0 [] [], .request 2 7200 [] []] Oidc.Client.init).states.length = 2 ∧
    (Oidc.Client.run ⟨[], true⟩ [.request 1 0 [] [], .request 2 7200 [] [], .begin 0 7201 99 none] Oidc.Client.init).states.length = 1 := by
  decide +kernel

/-- An answer that is not signed changes nothing, one that is signed does. -/
example : (∀ b doc post t now, .callback b doc post t now ∈ [Saml.Op.request 1 6 0 [] [], .callback 1 0 true 7200 7200] →
      Ex.signed doc = none) ∧
    (samlIds [Saml.Op.request 1 6 0 [] [], .callback 1 0 true 7200 7200]).Nodup ∧
    (Saml.run Ex.saml Ex.signed [.request 1 6 0 [] [], .callback 1 0 true 7200 7200] Saml.init).states.length = 1 ∧
    (Saml.run Ex.saml Ex.signed [.request 1 6 0 [] [], .callback 1 1 true 7200 7200] Saml.init).states.length = 0 := by
  refine ⟨?_, by decide, by decide +kernel, by decide +kernel⟩
  intro b doc post t now h
  simp only [List.mem_cons, List.not_mem_nil, or_false] at h
  rcases h with h | h
  · exact (nomatch h)
  · injection h with _ e; subst e; rfl

end Verif.Memory
