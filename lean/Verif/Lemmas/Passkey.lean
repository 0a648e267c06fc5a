import Verif.Model.Passkey
import Verif.Lemmas.Assoc

/-! Invariants of the passkey manager. -/

namespace Verif.Passkey

open Assoc

/-- The log says that key `k` was added, with claims `c`, to the account `e` with handle `h`. -/
def Added (log : List Event) (e : Str) (h : Nat) (k : Key) (c : Claims) : Prop :=
  ∃ page host r t0 now ck, Event.added page e h k c host r t0 now ck ∈ log

/-- The challenge an event consumes. -/
def uses : Event → Option Nat
  | .issued .. => none
  | .added _ _ _ _ _ _ r _ _ _ => some r.data.chal
  | .login _ _ _ r _ _ _ => some r.data.chal

def Unused (c : Nat) (log : List Event) : Prop := ∀ ev ∈ log, uses ev ≠ some c

/-- What holds of an event given the earlier ones. -/
def Cond (cfg : Cfg) : Event → List Event → Prop
  | .issued chal _ _, l => ∀ c t, Event.issued chal c t ∉ l
  | .added page e h k c host r t0 now ck, l =>
    c.email = some e ∧
    (∃ t, Event.issued r.data.chal (some c) t ∈ l ∧ t0 ≤ t + 300) ∧
    Unused r.data.chal l ∧
    r.data.typ = 0 ∧ r.data.origin = "https://".toList ++ host ∧
    r.data.rp = cfg.rpHash (cfg.hostOnly host) ∧ r.data.up = true ∧ r.data.uv = true ∧
    r.creds = some (k.id, k.pub) ∧ k.rp = r.data.rp ∧
    (page = .first → cfg.allowed e = true) ∧
    (page = .manage → manageOk cfg host c now = true) ∧
    (ck = true → page = .first ∧ cookieOk c = true) ∧
    (∀ k' c' e', Added l e' h k' c' → e' = e)
  | .login h k c r t0 now ck, l =>
    (∃ cl t, Event.issued r.data.chal cl t ∈ l ∧ t0 ≤ t + 300) ∧
    Unused r.data.chal l ∧
    r.data.typ = 1 ∧ r.data.up = true ∧ r.data.uv = true ∧
    r.cred = k.id ∧ r.data.rp = k.rp ∧ cfg.verify k.pub r.data r.sig = true ∧
    c.passkey = some k.id ∧
    (ck = true → recent cfg c now = true ∧ cookieOk c = true) ∧
    (∃ e, c.email = some e ∧ (∃ c', Added l e h k c') ∧
      ∃ k' c', Added l e h k' c' ∧ c'.sub = c.sub)

def LogOk (cfg : Cfg) : List Event → Prop
  | [] => True
  | e :: l => Cond cfg e l ∧ LogOk cfg l

theorem logOk_split {cfg : Cfg} {l1 l2 : List Event} {e : Event}
    (h : LogOk cfg (l1 ++ e :: l2)) : Cond cfg e l2 := by
  induction l1 with
  | nil => exact h.1
  | cons a l ih => exact ih h.2

theorem used_issued {cfg : Cfg} {c : Nat} : ∀ {l : List Event}, LogOk cfg l →
    ∀ ev ∈ l, uses ev = some c → ∃ cl t, Event.issued c cl t ∈ l := by
  intro l
  induction l with
  | nil => intro _ ev hev; cases hev
  | cons a l ih =>
    intro hl ev hev hu
    rcases List.mem_cons.1 hev with rfl | hev
    · cases ev with
      | issued => cases hu
      | added page e h k cc host r t0 now ck =>
        obtain ⟨-, ⟨t, ht, -⟩, -⟩ := hl.1
        cases hu
        exact ⟨_, t, List.mem_cons_of_mem _ ht⟩
      | login h k cc r t0 now ck =>
        obtain ⟨⟨cl, t, ht, -⟩, -⟩ := hl.1
        cases hu
        exact ⟨cl, t, List.mem_cons_of_mem _ ht⟩
    · obtain ⟨cl, t, ht⟩ := ih hl.2 ev hev hu
      exact ⟨cl, t, List.mem_cons_of_mem _ ht⟩

/-- A handle belongs to one account. -/
theorem added_unique {cfg : Cfg} : ∀ {l : List Event}, LogOk cfg l → ∀ {e h k c e' k' c'},
    Added l e h k c → Added l e' h k' c' → e = e' := by
  intro l
  induction l with
  | nil =>
    rintro - e h k c e' k' c' ⟨p, host, r, t0, now, ck, hm⟩
    cases hm
  | cons a l ih =>
    rintro hl e h k c e' k' c' ⟨p, host, r, t0, now, ck, hm⟩ ⟨p', host', r', t0', now', ck', hm'⟩
    rcases List.mem_cons.1 hm with q | q <;> rcases List.mem_cons.1 hm' with q' | q'
    · rw [← q] at q'
      cases q'
      rfl
    · subst q
      obtain ⟨-, -, -, -, -, -, -, -, -, -, -, -, -, hu⟩ := hl.1
      exact (hu k' c' e' ⟨p', host', r', t0', now', ck', q'⟩).symm
    · subst q'
      obtain ⟨-, -, -, -, -, -, -, -, -, -, -, -, -, hu⟩ := hl.1
      exact hu k c e ⟨p, host, r, t0, now, ck, q⟩
    · exact ih hl.2 ⟨p, host, r, t0, now, ck, q⟩ ⟨p', host', r', t0', now', ck', q'⟩

theorem Added.mono {l l' : List Event} (hl : ∀ x ∈ l, x ∈ l') {e h k c} (ha : Added l e h k c) :
    Added l' e h k c := by
  obtain ⟨p, host, r, t0, now, ck, hm⟩ := ha
  exact ⟨p, host, r, t0, now, ck, hl _ hm⟩

/-- A consistent database. -/
structure Good (log : List Event) (db : Db) : Prop where
  subj : ∀ e h, get db.subjects e = some h →
    ∃ u, get db.handles h = some u ∧ u.claims.email = some e
  hand : ∀ h u, get db.handles h = some u →
    ∃ e, u.claims.email = some e ∧ get db.subjects e = some h ∧
      (∀ k ∈ u.keys, ∃ c, Added log e h k c) ∧ ∃ k c, Added log e h k c ∧ c.sub = u.claims.sub

theorem Good.mono {l l' : List Event} (hl : ∀ x ∈ l, x ∈ l') {db : Db} (g : Good l db) :
    Good l' db := by
  refine ⟨g.subj, ?_⟩
  intro h u hu
  obtain ⟨e, he, hs, hk, k, c, ha, hc⟩ := g.hand h u hu
  refine ⟨e, he, hs, ?_, k, c, ha.mono hl, hc⟩
  intro k hkm
  obtain ⟨c, ha⟩ := hk k hkm
  exact ⟨c, ha.mono hl⟩

theorem Good.inj {l : List Event} {db : Db} (g : Good l db) {e e' : Str} {h : Nat}
    (h1 : get db.subjects e = some h) (h2 : get db.subjects e' = some h) : e = e' := by
  obtain ⟨u, hu, he⟩ := g.subj e h h1
  obtain ⟨u', hu', he'⟩ := g.subj e' h h2
  rw [hu] at hu'
  cases hu'
  rw [he] at he'
  cases he'
  rfl

/-- Replacing a user record by one with the same email. -/
theorem Good.upd {l : List Event} {db : Db} (g : Good l db) {h : Nat} {u u' : User} {e : Str}
    (hu : get db.handles h = some u) (he : u.claims.email = some e)
    (he' : u'.claims.email = some e)
    (hk : ∀ k ∈ u'.keys, ∃ c, Added l e h k c)
    (hs : ∃ k c, Added l e h k c ∧ c.sub = u'.claims.sub) :
    Good l ⟨put db.handles h u', db.subjects⟩ := by
  obtain ⟨e0, he0, hsub, -⟩ := g.hand h u hu
  rw [he] at he0
  cases he0
  constructor
  · intro e1 h1 hh
    show ∃ w, get (put db.handles h u') h1 = some w ∧ _
    rw [get_put]
    by_cases hc : h1 = h
    · subst hc
      rw [if_pos rfl]
      exact ⟨u', rfl, by rw [he', g.inj hsub hh]⟩
    · rw [if_neg hc]
      exact g.subj e1 h1 hh
  · intro h1 w hw
    have hw : get (put db.handles h u') h1 = some w := hw
    rw [get_put] at hw
    by_cases hc : h1 = h
    · subst hc
      rw [if_pos rfl] at hw
      cases hw
      exact ⟨e, he', hsub, hk, hs⟩
    · rw [if_neg hc] at hw
      exact g.hand h1 w hw

/-- Creating a user record. -/
theorem Good.new {l : List Event} {db : Db} (g : Good l db) {uid : Nat} {u : User} {e : Str}
    (he : get db.subjects e = none) (hun : ∀ e', get db.subjects e' ≠ some uid)
    (hue : u.claims.email = some e) (hk : u.keys = [])
    (hs : ∃ k c, Added l e uid k c ∧ c.sub = u.claims.sub) :
    Good l ⟨put db.handles uid u, put db.subjects e uid⟩ := by
  constructor
  · intro e1 h1 hh
    replace hh : get (put db.subjects e uid) e1 = some h1 := hh
    show ∃ w, get (put db.handles uid u) h1 = some w ∧ _
    rw [get_put] at hh
    rw [get_put]
    by_cases hc : e1 = e
    · subst hc
      rw [if_pos rfl] at hh
      cases hh
      rw [if_pos rfl]
      exact ⟨u, rfl, hue⟩
    · rw [if_neg hc] at hh
      have hne : h1 ≠ uid := by
        intro hx
        subst hx
        exact hun e1 hh
      rw [if_neg hne]
      exact g.subj e1 h1 hh
  · intro h1 w hw
    have hw : get (put db.handles uid u) h1 = some w := hw
    rw [get_put] at hw
    by_cases hc : h1 = uid
    · subst hc
      rw [if_pos rfl] at hw
      cases hw
      refine ⟨e, hue, ?_, ?_, hs⟩
      · show get (put db.subjects e h1) e = some h1
        rw [get_put, if_pos rfl]
      · intro k hkm
        rw [hk] at hkm
        cases hkm
    · rw [if_neg hc] at hw
      obtain ⟨e1, h1e, h1s, h1k, h1c⟩ := g.hand h1 w hw
      refine ⟨e1, h1e, ?_, h1k, h1c⟩
      show get (put db.subjects e uid) e1 = some h1
      rw [get_put, if_neg, h1s]
      intro hx
      subst hx
      rw [he] at h1s
      cases h1s

structure Inv (cfg : Cfg) (s : State) : Prop where
  db : Good s.log s.db
  disk : Good s.log s.disk
  ext : ∀ e h, get s.disk.subjects e = some h → get s.db.subjects e = some h
  ch : ∀ c ch, (c, ch) ∈ s.challenges → Event.issued c ch.claims ch.created ∈ s.log ∧
    (∀ v ∈ s.vacs, v ≤ ch.created + 300) ∧ Unused c s.log
  chE : ∀ c ch cl, (c, ch) ∈ s.challenges → ch.claims = some cl → ∃ e, cl.email = some e ∧
    ∀ e' k c', Added s.log e' ch.uid k c' → e' = e
  chU : ∀ c ch cl c' ch' cl', (c, ch) ∈ s.challenges → ch.claims = some cl →
    (c', ch') ∈ s.challenges → ch'.claims = some cl' → ch.uid = ch'.uid → cl.email = cl'.email
  log : LogOk cfg s.log

theorem reread_subj {s : State} (ext : ∀ e h, get s.disk.subjects e = some h →
    get s.db.subjects e = some h) (e : Str) :
    get (reread s).subjects e = get s.db.subjects e := by
  show get (overlay s.disk.subjects s.db.subjects) e = _
  rw [get_overlay]
  cases h : get s.disk.subjects e with
  | none => rfl
  | some v => exact (ext e v h).symm

theorem reread_good {cfg : Cfg} {s : State} (i : Inv cfg s) : Good s.log (reread s) := by
  have hsub := reread_subj i.ext
  have hh : ∀ h, get (reread s).handles h =
      (get s.disk.handles h).or (get s.db.handles h) :=
    fun h => get_overlay s.disk.handles s.db.handles h
  constructor
  · intro e h he
    rw [hsub] at he
    rw [hh]
    cases hd : get s.disk.handles h with
    | none => exact i.db.subj e h he
    | some u =>
      obtain ⟨e', he', hs', -⟩ := i.disk.hand h u hd
      refine ⟨u, rfl, ?_⟩
      rw [he', i.db.inj (i.ext _ _ hs') he]
  · intro h u hu
    rw [hh] at hu
    cases hd : get s.disk.handles h with
    | none =>
      rw [hd] at hu
      obtain ⟨e, h1, h2, h3⟩ := i.db.hand h u hu
      exact ⟨e, h1, by rw [hsub]; exact h2, h3⟩
    | some w =>
      rw [hd] at hu
      obtain rfl : w = u := by simpa using hu
      obtain ⟨e, h1, h2, h3⟩ := i.disk.hand h w hd
      exact ⟨e, h1, by rw [hsub]; exact i.ext _ _ h2, h3⟩

/-- What the environment guarantees: random values are new, the clock does not go back, and each
ceremony request begins with `vacuum`. -/
def Pre (s : State) : Op → Prop
  | .attOptions _ _ t _ _ chal uid =>
    (∀ v ∈ s.vacs, v ≤ t) ∧ (∀ c t', Event.issued chal c t' ∉ s.log) ∧
    (∀ e k c, ¬ Added s.log e uid k c) ∧
    (∀ c ch, (c, ch) ∈ s.challenges → ch.claims ≠ none → ch.uid ≠ uid)
  | .asrtOptions t chal => (∀ v ∈ s.vacs, v ≤ t) ∧ (∀ c t', Event.issued chal c t' ∉ s.log)
  | .attest _ _ t0 _ _ _ _ => t0 ∈ s.vacs
  | .assert _ t0 _ _ _ => t0 ∈ s.vacs
  | _ => True

def WF (cfg : Cfg) : List Op → State → Prop
  | [], _ => True
  | o :: os, s => Pre s o ∧ WF cfg os (step cfg s o)

theorem inv_init (cfg : Cfg) : Inv cfg init := by
  have g : Good init.log init.db := by
    constructor
    · intro e h hh; cases hh
    · intro h u hu; cases hu
  refine ⟨g, g, fun _ _ h => h, ?_, ?_, ?_, trivial⟩
  · intro _ _ h; cases h
  · intro _ _ _ h; cases h
  · intro _ _ _ _ _ _ h; cases h

/-- Fewer challenges, and a new database that knows the same accounts. -/
theorem Inv.mono {cfg : Cfg} {s : State} (i : Inv cfg s) {chs : List (Nat × Challenge)} {db dk : Db}
    (hc : ∀ x ∈ chs, x ∈ s.challenges) (hg : Good s.log db) (hd : Good s.log dk)
    (hx : ∀ e h, get dk.subjects e = some h → get db.subjects e = some h) :
    Inv cfg { s with challenges := chs, db := db, disk := dk } where
  db := hg
  disk := hd
  ext := hx
  ch c ch h := i.ch c ch (hc _ h)
  chE c ch cl h := i.chE c ch cl (hc _ h)
  chU c ch cl c' ch' cl' h hcl h' := i.chU c ch cl c' ch' cl' (hc _ h) hcl (hc _ h')
  log := i.log

theorem inv_commit {cfg : Cfg} {s : State} (i : Inv cfg s) {chs : List (Nat × Challenge)} {db : Db}
    (c : Commit) (hc : ∀ x ∈ chs, x ∈ s.challenges) (hg : Good s.log db)
    (hs : ∀ e, get db.subjects e = get s.db.subjects e) :
    Inv cfg (commit { s with challenges := chs } c db) := by
  unfold commit
  split
  · exact i.mono hc hg hg (fun _ _ h => h)
  · exact i.mono hc hg i.disk (fun e h hh => by rw [hs]; exact i.ext e h hh)

/-- A new challenge. -/
theorem inv_issue {cfg : Cfg} {s : State} (i : Inv cfg s) {chal t uid : Nat}
    {cl : Option Claims} (hv : ∀ v ∈ s.vacs, v ≤ t)
    (hf : ∀ c t', Event.issued chal c t' ∉ s.log)
    (hE : ∀ x, cl = some x → ∃ e, x.email = some e ∧
      (∀ e' k c, Added s.log e' uid k c → e' = e) ∧
      ∀ c ch y, (c, ch) ∈ s.challenges → ch.claims = some y → ch.uid = uid → y.email = some e) :
    Inv cfg { s with challenges := put s.challenges chal ⟨t, cl, uid⟩
                     log := .issued chal cl t :: s.log } := by
  have hm : ∀ x ∈ s.log, x ∈ Event.issued chal cl t :: s.log :=
    fun _ h => List.mem_cons_of_mem _ h
  have hadd : ∀ {e h k c}, Added (Event.issued chal cl t :: s.log) e h k c → Added s.log e h k c := by
    rintro e h k c ⟨p, host, r, t0, now, ck, hm⟩
    rcases List.mem_cons.1 hm with hm | hm
    · cases hm
    · exact ⟨p, host, r, t0, now, ck, hm⟩
  have hun : Unused chal s.log := by
    intro ev hev hu
    obtain ⟨c, t', h⟩ := used_issued i.log ev hev hu
    exact hf c t' h
  have hun' : ∀ c, Unused c s.log → Unused c (Event.issued chal cl t :: s.log) := by
    intro c h ev hev
    rcases List.mem_cons.1 hev with rfl | hev
    · intro h; cases h
    · exact h ev hev
  refine ⟨i.db.mono hm, i.disk.mono hm, i.ext, ?_, ?_, ?_, hf, i.log⟩
  · intro c ch h
    rcases mem_put.1 h with h | ⟨h, -⟩
    · cases h
      exact ⟨List.mem_cons_self, fun v hvv => Nat.le_trans (hv v hvv) (Nat.le_add_right _ _),
        hun' _ hun⟩
    · obtain ⟨h1, h2, h3⟩ := i.ch c ch h
      exact ⟨List.mem_cons_of_mem _ h1, h2, hun' _ h3⟩
  · intro c ch x h hx
    rcases mem_put.1 h with h | ⟨h, -⟩
    · cases h
      obtain ⟨e, h1, h2, -⟩ := hE x hx
      exact ⟨e, h1, fun e' k c ha => h2 e' k c (hadd ha)⟩
    · obtain ⟨e, h1, h2⟩ := i.chE c ch x h hx
      exact ⟨e, h1, fun e' k c ha => h2 e' k c (hadd ha)⟩
  · intro c ch x c' ch' x' h hx h' hx' hu
    rcases mem_put.1 h with h | ⟨h, -⟩ <;> rcases mem_put.1 h' with h' | ⟨h', -⟩
    · cases h; cases h'
      have hx : cl = some x := hx
      have hx' : cl = some x' := hx'
      rw [hx] at hx'
      cases hx'
      rfl
    · cases h
      obtain ⟨e, h1, -, h3⟩ := hE x hx
      rw [h1, h3 c' ch' x' h' hx' hu.symm]
    · cases h'
      obtain ⟨e, h1, -, h3⟩ := hE x' hx'
      rw [h1, h3 c ch x h hx hu]
    · exact i.chU c ch x c' ch' x' h hx h' hx' hu

/-- How `attest` can end. -/
inductive AttEnds (cfg : Cfg) (s : State) (page : Page) (now t0 : Nat) (claims : Claims)
    (host : Str) (r : AttReq) (c : Commit) : State → Prop
  | same : AttEnds cfg s page now t0 claims host r c s
  | consumed : AttEnds cfg s page now t0 claims host r c
      { s with challenges := del s.challenges r.data.chal }
  | full (e : Str) (h : Nat) (u : User) (hs : get (reread s).subjects e = some h)
      (hu : get (reread s).handles h = some u) :
      AttEnds cfg s page now t0 claims host r c
        { s with challenges := del s.challenges r.data.chal, db := reread s }
  | done (e : Str) (ch : Challenge) (h : Nat) (u : User) (db : Db) (id pub : Nat)
      (he : claims.email = some e) (ht : r.data.typ = 0)
      (ho : r.data.origin = "https://".toList ++ host)
      (hch : get s.challenges r.data.chal = some ch) (hcl : ch.claims = some claims)
      (hrp : r.data.rp = cfg.rpHash (cfg.hostOnly host)) (hup : r.data.up = true)
      (huv : r.data.uv = true) (hcr : r.creds = some (id, pub)) (hop : c ≠ .openFails)
      (hen : ensureUser (reread s) e ch.uid claims = (h, u, db))
      (hpg : page = .first → u.keys = []) (ck : Bool) (hck : ck = true → (page = .first ∧ c = .ok) ∧ cookieOk claims = true) :
      AttEnds cfg s page now t0 claims host r c
        { commit { s with challenges := del s.challenges r.data.chal } c
            ⟨put db.handles h { u with keys := u.keys ++ [⟨id, pub, r.data.rp⟩] }, db.subjects⟩ with
          log := .added page e h ⟨id, pub, r.data.rp⟩ claims host r t0 now ck :: s.log }

theorem attCheck_some {cfg : Cfg} {host : Str} {claims : Claims} {r : AttReq} {ch : Challenge}
    {x : Nat × Nat} (h : attCheck cfg host claims r ch = some x) :
    ch.claims = some claims ∧ r.data.rp = cfg.rpHash (cfg.hostOnly host) ∧ r.data.up = true ∧
      r.data.uv = true ∧ r.creds = some x := by
  unfold attCheck at h
  split at h
  · cases h
  split at h
  · cases h
  split at h
  · cases h
  split at h
  · cases h
  rename_i h1 h2 h3 h4
  simp only [Bool.not_eq_true, Bool.not_eq_false', ne_eq, Decidable.not_not] at h1 h2 h3 h4
  exact ⟨h1, h2, by simpa using h3, by simpa using h4, h⟩

theorem attest_ends (cfg : Cfg) (s : State) (page : Page) (now t0 : Nat) (claims : Claims)
    (host : Str) (r : AttReq) (c : Commit) :
    AttEnds cfg s page now t0 claims host r c (attest cfg s page now t0 claims host r c) := by
  unfold attest
  cases he : claims.email with
  | none => exact .same
  | some e =>
    dsimp only
    split
    · exact .same
    rename_i ht
    split
    · exact .same
    rename_i ho
    cases hch : get s.challenges r.data.chal with
    | none => exact .consumed
    | some ch =>
      dsimp only
      cases hac : attCheck cfg host claims r ch with
      | none => exact .consumed
      | some x =>
        obtain ⟨id, pub⟩ := x
        obtain ⟨h1, h2, h3, h4, h5⟩ := attCheck_some hac
        dsimp only
        split
        · exact .consumed
        rename_i hop
        cases hen : ensureUser (reread s) e ch.uid claims with
        | mk h y =>
          obtain ⟨u, db⟩ := y
          dsimp only
          split
          · rename_i hk
            unfold ensureUser at hen
            cases hs : get (reread s).subjects e with
            | none =>
              rw [hs] at hen
              simp only [Prod.mk.injEq] at hen
              obtain ⟨-, rfl, -⟩ := hen
              exact absurd rfl hk.2
            | some h' =>
              rw [hs] at hen
              dsimp only at hen
              cases hu : get (reread s).handles h' with
              | none =>
                rw [hu] at hen
                simp only [Prod.mk.injEq] at hen
                obtain ⟨-, rfl, -⟩ := hen
                exact absurd rfl hk.2
              | some u' =>
                rw [hu] at hen
                simp only [Prod.mk.injEq] at hen
                obtain ⟨rfl, rfl, rfl⟩ := hen
                exact .full e h' u' hs hu
          · rename_i hk
            refine .done e ch h u db id pub he (Decidable.not_not.1 ht) (Decidable.not_not.1 ho)
              hch h1 h2 h3 h4 h5 hop hen ?_ _ ?_
            · intro hp
              exact Decidable.not_not.1 fun hx => hk ⟨hp, hx⟩
            · intro hx
              simp only [Bool.and_eq_true, decide_eq_true_eq] at hx
              refine ⟨hx.1, ?_⟩
              have h2 := hx.2
              unfold cookieOk at h2 ⊢
              rw [he]
              exact h2

theorem inv_attest {cfg : Cfg} {s : State} (i : Inv cfg s) (page : Page) (now t0 : Nat)
    (claims : Claims) (host : Str) (r : AttReq) (c : Commit) (ht0 : t0 ∈ s.vacs)
    (ha : page = .first → cfg.allowed (claims.email.getD []) = true)
    (hm : page = .manage → manageOk cfg host claims now = true) :
    Inv cfg (attest cfg s page now t0 claims host r c) := by
  have hdel : ∀ x ∈ del s.challenges r.data.chal, x ∈ s.challenges :=
    fun x h => (mem_del.1 h).1
  have hsub := reread_subj i.ext
  have hg := reread_good i
  have hends := attest_ends cfg s page now t0 claims host r c
  revert hends
  generalize attest cfg s page now t0 claims host r c = s'
  intro hends
  cases hends with
  | same => exact i
  | consumed => exact i.mono hdel i.db i.disk i.ext
  | full e h u hs hu =>
    exact i.mono hdel hg i.disk (fun e h hh => by rw [hsub]; exact i.ext e h hh)
  | done e ch h u db id pub he ht ho hch hcl hrp hup huv hcr hop hen hpg ck hck =>
    have hmem := get_mem hch
    obtain ⟨hiss, hvac, hun⟩ := i.ch _ _ hmem
    rw [hcl] at hiss
    obtain ⟨e', he', hown⟩ := i.chE _ _ _ hmem hcl
    rw [he] at he'
    cases he'
    have hlm : ∀ x ∈ s.log,
        x ∈ Event.added page e h ⟨id, pub, r.data.rp⟩ claims host r t0 now ck :: s.log :=
      fun _ h => List.mem_cons_of_mem _ h
    have hadd : Added (Event.added page e h ⟨id, pub, r.data.rp⟩ claims host r t0 now ck :: s.log)
        e h ⟨id, pub, r.data.rp⟩ claims :=
      ⟨page, host, r, t0, now, ck, List.mem_cons_self⟩
    have hadd' : ∀ {e' h' k' c'},
        Added (Event.added page e h ⟨id, pub, r.data.rp⟩ claims host r t0 now ck :: s.log)
          e' h' k' c' → (e' = e ∧ h' = h) ∨ Added s.log e' h' k' c' := by
      rintro e' h' k' c' ⟨p, host, r, t0, now, ck, hm⟩
      rcases List.mem_cons.1 hm with hm | hm
      · cases hm
        exact .inl ⟨rfl, rfl⟩
      · exact .inr ⟨p, host, r, t0, now, ck, hm⟩
    -- the database with the new key, and whose handle it is
    have key : Good (Event.added page e h ⟨id, pub, r.data.rp⟩ claims host r t0 now ck :: s.log)
          ⟨put db.handles h { u with keys := u.keys ++ [⟨id, pub, r.data.rp⟩] }, db.subjects⟩ ∧
        (∀ k' c' e', Added s.log e' h k' c' → e' = e) ∧
        (∀ c' ch' cl', (c', ch') ∈ s.challenges → ch'.claims = some cl' → ch'.uid = h →
          cl'.email = some e) ∧
        (∀ e' h', get s.db.subjects e' = some h' → get db.subjects e' = some h') := by
      cases hs : get (reread s).subjects e with
      | some h' =>
        obtain ⟨u', hu', hue⟩ := hg.subj e h' hs
        have hen' := hen
        unfold ensureUser at hen'
        rw [hs] at hen'
        dsimp only at hen'
        rw [hu'] at hen'
        simp only [Prod.mk.injEq] at hen'
        obtain ⟨rfl, rfl, rfl⟩ := hen'
        obtain ⟨e1, he1, -, hks, k1, c1, ha1, hc1⟩ := hg.hand h' u' hu'
        rw [hue] at he1
        cases he1
        refine ⟨(hg.mono hlm).upd hu' hue hue ?_ ⟨k1, c1, ha1.mono hlm, hc1⟩, ?_, ?_, ?_⟩
        · intro k hk
          rcases List.mem_append.1 hk with hk | hk
          · obtain ⟨c, hc⟩ := hks k hk
            exact ⟨c, hc.mono hlm⟩
          · rw [List.mem_singleton.1 hk]
            exact ⟨claims, hadd⟩
        · intro k' c' e' ha'
          exact added_unique i.log ha' ha1
        · intro c' ch' cl' hm' hcl' hu1
          obtain ⟨e2, he2, ho2⟩ := i.chE c' ch' cl' hm' hcl'
          rw [he2, ho2 e k1 c1 (by rw [hu1]; exact ha1)]
        · intro e' h' hh
          rw [hsub]
          exact hh
      | none =>
        have hen' := hen
        unfold ensureUser at hen'
        rw [hs] at hen'
        simp only [Prod.mk.injEq] at hen'
        obtain ⟨rfl, rfl, rfl⟩ := hen'
        have hun1 : ∀ e', get (reread s).subjects e' ≠ some ch.uid := by
          intro e' hh
          obtain ⟨u', hu', hue'⟩ := hg.subj e' _ hh
          obtain ⟨e1, he1, -, -, k1, c1, ha1, -⟩ := hg.hand _ _ hu'
          rw [hue'] at he1
          cases he1
          rw [hown e' k1 c1 ha1, hs] at hh
          cases hh
        have hnew := (hg.mono hlm).new (u := ⟨[], claims⟩) hs hun1 he rfl ⟨_, _, hadd, rfl⟩
        refine ⟨hnew.upd (u := ⟨[], claims⟩) (by show get (put _ _ _) _ = _; rw [get_put, if_pos rfl])
          he he ?_ ⟨_, _, hadd, rfl⟩, ?_, ?_, ?_⟩
        · intro k hk
          rw [List.mem_singleton.1 hk]
          exact ⟨claims, hadd⟩
        · intro k' c' e' ha'
          exact hown e' k' c' ha'
        · intro c' ch' cl' hm' hcl' hu1
          rw [i.chU c' ch' cl' _ ch claims hm' hcl' hmem hcl hu1, he]
        · intro e' h' hh
          show get (put (reread s).subjects e ch.uid) e' = some h'
          rw [← hsub] at hh
          rw [get_put, if_neg, hh]
          intro hx
          rw [hx, hs] at hh
          cases hh
    obtain ⟨kg, kown, kch, ksub⟩ := key
    have hunused : ∀ c', c' ≠ r.data.chal → Unused c' s.log →
        Unused c' (Event.added page e h ⟨id, pub, r.data.rp⟩ claims host r t0 now ck :: s.log) := by
      intro c' hne hu' ev hev
      rcases List.mem_cons.1 hev with rfl | hev
      · intro hx
        cases hx
        exact hne rfl
      · exact hu' ev hev
    have ei : Inv cfg { s with
        challenges := del s.challenges r.data.chal
        db := ⟨put db.handles h { u with keys := u.keys ++ [⟨id, pub, r.data.rp⟩] }, db.subjects⟩
        log := .added page e h ⟨id, pub, r.data.rp⟩ claims host r t0 now ck :: s.log } := by
      refine ⟨kg, i.disk.mono hlm, fun e' h' hh => ksub e' h' (i.ext e' h' hh), ?_, ?_, ?_, ?_, i.log⟩
      · intro c' ch' hm'
        obtain ⟨hm', hne⟩ := mem_del.1 hm'
        obtain ⟨h1, h2, h3⟩ := i.ch c' ch' hm'
        exact ⟨List.mem_cons_of_mem _ h1, h2, hunused c' hne h3⟩
      · intro c' ch' cl' hm' hcl'
        replace hm' := hdel _ hm'
        obtain ⟨e2, he2, ho2⟩ := i.chE c' ch' cl' hm' hcl'
        refine ⟨e2, he2, ?_⟩
        intro e3 k3 c3 ha3
        rcases hadd' ha3 with ⟨rfl, hh⟩ | ha3
        · have := kch c' ch' cl' hm' hcl' hh
          rw [he2] at this
          cases this
          rfl
        · exact ho2 e3 k3 c3 ha3
      · intro c1 ch1 cl1 c2 ch2 cl2 h1 hc1 h2
        exact i.chU c1 ch1 cl1 c2 ch2 cl2 (hdel _ h1) hc1 (hdel _ h2)
      · refine ⟨he, ⟨ch.created, hiss, hvac t0 ht0⟩, hun, ht, ho, hrp, hup, huv, hcr, rfl, ?_, hm,
          fun hx => ⟨(hck hx).1.1, (hck hx).2⟩, kown⟩
        intro hp
        have := ha hp
        rw [he] at this
        exact this
    unfold commit
    split
    · exact ⟨ei.db, ei.db, fun _ _ h => h, ei.ch, ei.chE, ei.chU, ei.log⟩
    · exact ei

/-- How `assert` can end. -/
inductive AsrtEnds (cfg : Cfg) (s : State) (now t0 : Nat) (token : Option Claims) (r : AsrtReq)
    (c : Commit) : State → Prop
  | same : AsrtEnds cfg s now t0 token r c s
  | consumed : AsrtEnds cfg s now t0 token r c
      { s with challenges := del s.challenges r.data.chal }
  | refused : AsrtEnds cfg s now t0 token r c
      { s with challenges := del s.challenges r.data.chal, db := reread s }
  | failed (h : Nat) (u : User) (k : Key) (hu : get (reread s).handles h = some u) (hc : c ≠ .ok) :
      AsrtEnds cfg s now t0 token r c
        (commit { s with challenges := del s.challenges r.data.chal } c
          ⟨put (reread s).handles h { u with claims := refreshed u token }, (reread s).subjects⟩)
  | done (ch : Challenge) (h : Nat) (u : User) (k : Key) (ht : r.data.typ = 1)
      (hup : r.data.up = true) (huv : r.data.uv = true)
      (hch : get s.challenges r.data.chal = some ch)
      (hl : loginHandle (reread s) r = some h)
      (hu : get (reread s).handles h = some u) (hk : k ∈ u.keys) (hid : r.cred = k.id)
      (hrp : r.data.rp = k.rp) (hsig : cfg.verify k.pub r.data r.sig = true) (hc : c = .ok) :
      AsrtEnds cfg s now t0 token r c
        { commit { s with challenges := del s.challenges r.data.chal } c
            ⟨put (reread s).handles h { u with claims := refreshed u token }, (reread s).subjects⟩ with
          log := .login h k { refreshed u token with passkey := some k.id } r t0 now
            (recent cfg { refreshed u token with passkey := some k.id } now &&
              cookieOk { refreshed u token with passkey := some k.id }) :: s.log }

theorem asrtCheck_some {cfg : Cfg} {db : Db} {r : AsrtReq} {h : Nat} {u : User} {k : Key}
    (hx : asrtCheck cfg db r = some (h, u, k)) :
    loginHandle db r = some h ∧ get db.handles h = some u ∧ k ∈ u.keys ∧ r.cred = k.id ∧
      r.data.rp = k.rp ∧ cfg.verify k.pub r.data r.sig = true := by
  unfold asrtCheck at hx
  cases hl : loginHandle db r with
  | none => rw [hl] at hx; cases hx
  | some h' =>
    rw [hl] at hx
    dsimp only at hx
    cases hu : get db.handles h' with
    | none => rw [hu] at hx; cases hx
    | some u' =>
      rw [hu] at hx
      dsimp only at hx
      cases hf : u'.keys.find? (fun k => decide (k.id = r.cred)) with
      | none => rw [hf] at hx; cases hx
      | some k' =>
        rw [hf] at hx
        dsimp only at hx
        split at hx
        · cases hx
        rename_i h1
        split at hx
        · cases hx
        rename_i h2
        cases hx
        have := List.find?_some hf
        exact ⟨rfl, hu, List.mem_of_find?_eq_some hf, (of_decide_eq_true this).symm,
          Decidable.not_not.1 h1, by simpa using h2⟩

theorem assert_ends (cfg : Cfg) (s : State) (now t0 : Nat) (token : Option Claims) (r : AsrtReq)
    (c : Commit) : AsrtEnds cfg s now t0 token r c (assert cfg s now t0 token r c) := by
  unfold assert
  split
  · exact .same
  rename_i h1
  split
  · exact .same
  rename_i h2
  split
  · exact .same
  rename_i h3
  cases hch : get s.challenges r.data.chal with
  | none => exact .same
  | some ch =>
    dsimp only
    split
    · exact .consumed
    cases hac : asrtCheck cfg (reread s) r with
    | none => exact .refused
    | some x =>
      obtain ⟨h, u, k⟩ := x
      obtain ⟨hl, hu, hk, hid, hrp, hsig⟩ := asrtCheck_some hac
      dsimp only
      split
      · rename_i hc
        exact .done ch h u k (Decidable.not_not.1 h1) (by simpa using h2) (by simpa using h3) hch hl
          hu hk hid hrp hsig hc
      · rename_i hc
        exact .failed h u k hu hc

theorem refreshed_spec (u : User) (token : Option Claims) :
    (refreshed u token).email = u.claims.email ∧ (refreshed u token).sub = u.claims.sub := by
  unfold refreshed
  cases token with
  | none => exact ⟨rfl, rfl⟩
  | some nc =>
    dsimp only
    split
    · rename_i h
      exact ⟨h.2, h.1⟩
    · exact ⟨rfl, rfl⟩

theorem inv_assert {cfg : Cfg} {s : State} (i : Inv cfg s) (now t0 : Nat) (token : Option Claims)
    (r : AsrtReq) (c : Commit) (ht0 : t0 ∈ s.vacs) :
    Inv cfg (assert cfg s now t0 token r c) := by
  have hdel : ∀ x ∈ del s.challenges r.data.chal, x ∈ s.challenges :=
    fun x h => (mem_del.1 h).1
  have hsub := reread_subj i.ext
  have hg := reread_good i
  have hupd : ∀ h u, get (reread s).handles h = some u →
      Inv cfg (commit { s with challenges := del s.challenges r.data.chal } c
        ⟨put (reread s).handles h { u with claims := refreshed u token }, (reread s).subjects⟩) := by
    intro h u hu
    obtain ⟨e, he, -, hk, k1, c1, ha, hc⟩ := hg.hand h u hu
    obtain ⟨r1, r2⟩ := refreshed_spec u token
    exact inv_commit i c hdel
      (hg.upd hu he (by rw [← he]; exact r1) hk ⟨k1, c1, ha, by rw [hc]; exact r2.symm⟩) hsub
  have hends := assert_ends cfg s now t0 token r c
  revert hends
  generalize assert cfg s now t0 token r c = s'
  intro hends
  cases hends with
  | same => exact i
  | consumed => exact i.mono hdel i.db i.disk i.ext
  | refused => exact i.mono hdel hg i.disk (fun e h hh => by rw [hsub]; exact i.ext e h hh)
  | failed h u k hu hc => exact hupd h u hu
  | done ch h u k ht hup huv hch hl hu hk hid hrp hsig hc =>
    have j := hupd h u hu
    obtain ⟨hiss, hvac, hun⟩ := i.ch _ _ (get_mem hch)
    obtain ⟨e, he, -, hks, k1, c1, ha1, hc1⟩ := hg.hand h u hu
    obtain ⟨r1, r2⟩ := refreshed_spec u token
    have hlog : ∀ db, (commit { s with challenges := del s.challenges r.data.chal } c db).log = s.log ∧
        (commit { s with challenges := del s.challenges r.data.chal } c db).vacs = s.vacs ∧
        (commit { s with challenges := del s.challenges r.data.chal } c db).challenges =
          del s.challenges r.data.chal := by
      intro db
      unfold commit
      split <;> exact ⟨rfl, rfl, rfl⟩
    revert j
    generalize hdb : (⟨put (reread s).handles h { u with claims := refreshed u token },
      (reread s).subjects⟩ : Db) = db
    obtain ⟨hlog1, hlog2, hlog3⟩ := hlog db
    generalize commit { s with challenges := del s.challenges r.data.chal } c db = s2 at hlog1 hlog2 hlog3 ⊢
    intro j
    generalize hev : Event.login h k _ r t0 now _ = ev
    have hadd : ∀ {e' h' k' c'}, Added (ev :: s.log) e' h' k' c' → Added s.log e' h' k' c' := by
      rintro e' h' k' c' ⟨p, host, r, t0, now, ck, hm⟩
      rcases List.mem_cons.1 hm with hm | hm
      · rw [← hm] at hev
        cases hev
      · exact ⟨p, host, r, t0, now, ck, hm⟩
    have hlm : ∀ x ∈ s2.log, x ∈ ev :: s.log := fun x h => List.mem_cons_of_mem _ (hlog1 ▸ h)
    refine ⟨j.db.mono hlm, j.disk.mono hlm, j.ext, ?_, ?_, j.chU, ?_, i.log⟩
    · intro c' ch' hm'
      obtain ⟨h1, h2, h3⟩ := j.ch c' ch' hm'
      refine ⟨hlm _ h1, h2, ?_⟩
      intro ev' hev'
      rcases List.mem_cons.1 hev' with rfl | hev'
      · rw [← hev]
        intro hx
        cases hx
        have hm'' : (r.data.chal, ch') ∈ s2.challenges := hm'
        rw [hlog3] at hm''
        exact (mem_del.1 hm'').2 rfl
      · exact h3 ev' (hlog1 ▸ hev')
    · intro c' ch' cl' hm' hcl'
      obtain ⟨e2, he2, ho2⟩ := j.chE c' ch' cl' hm' hcl'
      exact ⟨e2, he2, fun e' k' c' ha => ho2 e' k' c' (hlog1 ▸ hadd ha)⟩
    · rw [← hev]
      refine ⟨⟨_, _, hiss, hvac t0 ht0⟩, hun, ht, hup, huv, hid, hrp, hsig, rfl, ?_, e, ?_, ?_, ?_⟩
      · intro hx
        simp only [Bool.and_eq_true] at hx
        exact hx
      · rw [← he]
        exact r1
      · exact hks k hk
      · exact ⟨k1, c1, ha1, by rw [hc1]; exact r2.symm⟩

theorem deleteKey_some {db db' : Db} {e : Str} {id : Nat} (hx : deleteKey db e id = some db') :
    ∃ h u, get db.subjects e = some h ∧ get db.handles h = some u ∧
      db' = ⟨put db.handles h { u with keys := u.keys.filter fun k => decide (k.id ≠ id) },
        db.subjects⟩ := by
  unfold deleteKey at hx
  cases hs : get db.subjects e with
  | none => rw [hs] at hx; cases hx
  | some h =>
    rw [hs] at hx
    dsimp only at hx
    cases hu : get db.handles h with
    | none => rw [hu] at hx; cases hx
    | some u =>
      rw [hu] at hx
      cases hx
      exact ⟨h, u, rfl, hu, rfl⟩

theorem inv_delete {cfg : Cfg} {s : State} (i : Inv cfg s) (now : Nat) (claims : Claims)
    (host : Str) (id : Nat) (c : Commit) : Inv cfg (delete cfg s now claims host id c) := by
  have hsub := reread_subj i.ext
  have hg := reread_good i
  unfold delete
  split
  · exact i
  split
  · exact i
  split
  · exact i
  cases hd : deleteKey (reread s) (claims.email.getD []) id with
  | none => exact i.mono (fun _ h => h) hg i.disk (fun e h hh => by rw [hsub]; exact i.ext e h hh)
  | some db =>
    obtain ⟨h, u, -, hu, rfl⟩ := deleteKey_some hd
    obtain ⟨e, he, -, hk, hs⟩ := hg.hand h u hu
    refine inv_commit i (chs := s.challenges) c (fun _ h => h) (hg.upd hu he he ?_ hs) hsub
    intro k hkm
    exact hk k (List.mem_filter.1 hkm).1

theorem inv_step {cfg : Cfg} {s : State} (i : Inv cfg s) (op : Op) (hp : Pre s op) :
    Inv cfg (step cfg s op) := by
  cases op with
  | vacuum t =>
    have hf : ∀ x ∈ (vacuum t s).challenges, x ∈ s.challenges ∧ ¬ (x.2.created + 300 < t) := by
      intro x hx
      have hx := List.mem_filter.1 hx
      exact ⟨hx.1, of_decide_eq_true hx.2⟩
    refine ⟨i.db, i.disk, i.ext, ?_, ?_, ?_, i.log⟩
    · intro c ch h
      obtain ⟨h1, h2⟩ := hf _ h
      obtain ⟨a, b, d⟩ := i.ch c ch h1
      refine ⟨a, ?_, d⟩
      intro v hv
      rcases List.mem_cons.1 hv with rfl | hv
      · exact Nat.le_of_not_lt h2
      · exact b v hv
    · intro c ch cl h
      exact i.chE c ch cl (hf _ h).1
    · intro c ch cl c' ch' cl' h hcl h'
      exact i.chU c ch cl c' ch' cl' (hf _ h).1 hcl (hf _ h').1
  | reload => exact i.mono (chs := s.challenges) (fun _ h => h) i.disk i.disk (fun _ _ h => h)
  | restart =>
    exact i.mono (chs := []) (fun _ h => by cases h) i.disk i.disk (fun _ _ h => h)
  | attOptions page now t claims host chal uid =>
    obtain ⟨h1, h2, h3, h4⟩ := hp
    show Inv cfg (if _ then _ else _)
    split
    · exact i
    unfold attOptions
    cases he : claims.email with
    | none => exact i
    | some e =>
      dsimp only
      cases hu : attUid s.db e uid with
      | none => exact i
      | some u =>
        refine inv_issue i h1 h2 ?_
        intro x hx
        cases hx
        refine ⟨e, he, ?_⟩
        unfold attUid at hu
        cases hs : get s.db.subjects e with
        | none =>
          rw [hs] at hu
          cases hu
          refine ⟨fun e' k c ha => absurd ha (h3 e' k c), ?_⟩
          intro c ch y hm hcl hu
          exact absurd hu (h4 c ch hm (by rw [hcl]; simp))
        | some h =>
          rw [hs] at hu
          dsimp only at hu
          cases hh : get s.db.handles h with
          | none => rw [hh] at hu; cases hu
          | some w =>
            rw [hh] at hu
            obtain rfl : h = u := by simpa using hu
            obtain ⟨w', hw', hwe⟩ := i.db.subj e h hs
            obtain ⟨e1, he1, -, -, k1, c1, ha1, -⟩ := i.db.hand h w' hw'
            rw [hwe] at he1
            cases he1
            refine ⟨fun e' k c ha => added_unique i.log ha ha1, ?_⟩
            intro c ch y hm hcl hu
            obtain ⟨e2, he2, ho2⟩ := i.chE c ch y hm hcl
            rw [he2, ho2 e k1 c1 (by rw [hu]; exact ha1)]
  | asrtOptions t chal =>
    exact inv_issue i hp.1 hp.2 (fun x hx => by cases hx)
  | attest page now t0 claims host req c =>
    cases page with
    | first =>
      show Inv cfg (if _ then _ else _)
      split
      · exact i
      · rename_i hif
        exact inv_attest i _ _ _ _ _ _ _ hp (fun _ => by simpa using hif) (fun h => by cases h)
    | manage =>
      show Inv cfg (if _ then _ else _)
      split
      · exact i
      · rename_i hif
        exact inv_attest i _ _ _ _ _ _ _ hp (fun h => by cases h) (fun _ => by simpa using hif)
  | assert now t0 token req c => exact inv_assert i _ _ _ _ _ hp
  | delete now claims host id c => exact inv_delete i _ _ _ _ _

theorem inv_run {cfg : Cfg} : ∀ (ops : List Op) {s : State}, Inv cfg s → WF cfg ops s →
    Inv cfg (run cfg ops s)
  | [], _, i, _ => i
  | o :: os, _, i, h => inv_run os (inv_step i o h.1) h.2

end Verif.Passkey
