import Verif.Model.Cookies

/-!
# C100, C101: where a login is seen, and how it ends
-/

namespace Verif.Cookies

/-! ## Jar lemmas -/

/-- A cookie's identity. -/
def key (c : Cookie) : String × Str × Bool := (c.name, c.domain, c.hostOnly)

theorem mem_put {c x : Cookie} {l : List Cookie} (hn : (l.map key).Nodup) :
    x ∈ put c l ↔ x = c ∨ x ∈ l ∧ key x ≠ key c := by
  induction l with
  | nil => simp [put]
  | cons y l ih =>
    rw [List.map_cons, List.nodup_cons] at hn
    unfold put
    by_cases hk : y.name = c.name ∧ y.domain = c.domain ∧ y.hostOnly = c.hostOnly
    · rw [if_pos hk]
      have hk' : key y = key c := by simp [key, hk]
      rw [List.mem_cons, List.mem_cons]
      refine or_congr_right ⟨fun hx => ⟨Or.inr hx, fun e => ?_⟩, ?_⟩
      · exact hn.1 (hk'.trans e.symm ▸ List.mem_map_of_mem hx)
      · rintro ⟨rfl | h, h2⟩
        · exact absurd hk' h2
        · exact h
    · rw [if_neg hk]
      have hk' : key y ≠ key c := by
        intro e
        simp only [key, Prod.mk.injEq] at e
        exact hk e
      rw [List.mem_cons, List.mem_cons, ih hn.2]
      constructor
      · rintro (rfl | rfl | h)
        · exact Or.inr ⟨Or.inl rfl, hk'⟩
        · exact Or.inl rfl
        · exact Or.inr ⟨Or.inr h.1, h.2⟩
      · rintro (rfl | ⟨rfl | h, h2⟩)
        · exact Or.inr (Or.inl rfl)
        · exact Or.inl rfl
        · exact Or.inr (Or.inr ⟨h, h2⟩)

theorem put_nodup {c : Cookie} {l : List Cookie} (hn : (l.map key).Nodup) :
    ((put c l).map key).Nodup := by
  induction l with
  | nil => simp [put]
  | cons y l ih =>
    have hn0 := hn
    rw [List.map_cons, List.nodup_cons] at hn
    unfold put
    split
    · rename_i hk
      have hk' : key y = key c := by simp [key, hk]
      rw [List.map_cons, List.nodup_cons, ← hk']
      exact hn
    · rename_i hk
      rw [List.map_cons, List.nodup_cons]
      refine ⟨fun hm => ?_, ih hn.2⟩
      obtain ⟨x, hx, he⟩ := List.mem_map.1 hm
      rcases (mem_put hn.2).1 hx with rfl | hx
      · simp only [key, Prod.mk.injEq] at he
        exact hk ⟨he.1.symm, he.2.1.symm, he.2.2.symm⟩
      · exact hn.1 (he ▸ List.mem_map_of_mem hx.1)

theorem store_nodup {l : List Cookie} (host : Str) (sc : SetCookie) (hn : (l.map key).Nodup) :
    ((store l host sc).map key).Nodup := by
  unfold store
  split
  · exact hn
  · split
    · exact hn.sublist (List.filter_sublist.map _)
    · exact put_nodup hn

theorem mem_store {l : List Cookie} (hn : (l.map key).Nodup) (host : Str) (sc : SetCookie)
    (x : Cookie) :
    x ∈ store l host sc ↔
      (∃ d ho, place host sc = some (d, ho) ∧ sc.delete = false ∧
        x = ⟨sc.name, d, ho, sc.value, sc.expires⟩) ∨
      x ∈ l ∧ ∀ d ho, place host sc = some (d, ho) → key x ≠ (sc.name, d, ho) := by
  unfold store
  cases hp : place host sc with
  | none => simp
  | some p =>
    obtain ⟨d, ho⟩ := p
    dsimp only
    cases hd : sc.delete with
    | true =>
      simp only [if_true, List.mem_filter, Bool.true_eq_false, false_and, and_false, exists_false,
        false_or, Option.some.injEq, Prod.mk.injEq]
      refine and_congr_right fun _ => ?_
      simp only [Bool.not_eq_true', Bool.and_eq_false_iff, decide_eq_false_iff_not, key]
      constructor
      · rintro h d' ho' ⟨rfl, rfl⟩ he
        simp only [Prod.mk.injEq] at he
        simp [he] at h
      · intro h
        have := h d ho ⟨rfl, rfl⟩
        simp only [ne_eq, Prod.mk.injEq, not_and] at this
        by_cases h1 : x.name = sc.name
        · by_cases h2 : x.domain = d
          · exact Or.inr (this h1 h2)
          · exact Or.inl (Or.inr h2)
        · exact Or.inl (Or.inl h1)
    | false =>
      simp only [Bool.false_eq_true, if_false, Option.some.injEq, Prod.mk.injEq, true_and]
      rw [mem_put hn]
      refine or_congr ?_ (and_congr_right fun _ => ?_)
      · constructor
        · exact fun h => ⟨d, ho, ⟨rfl, rfl⟩, h⟩
        · rintro ⟨_, _, ⟨rfl, rfl⟩, h⟩
          exact h
      · constructor
        · rintro h _ _ ⟨rfl, rfl⟩
          exact h
        · exact fun h => h d ho ⟨rfl, rfl⟩

theorem foldl_nodup {l : List Cookie} (host : Str) (scs : List SetCookie)
    (hn : (l.map key).Nodup) :
    ((scs.foldl (fun j sc => store j host sc) l).map key).Nodup := by
  induction scs generalizing l with
  | nil => exact hn
  | cons s ss ih => exact ih (store_nodup host s hn)

theorem jar_nodup (h : List Step) : ((jar h).map key).Nodup := by
  induction h with
  | nil => simp [jar]
  | cons s h ih => exact foldl_nodup _ _ ih

/-! ## C100 -/

/-- Host `h` is in domain `d`. -/
def Spec.InDomain (h d : Str) : Prop := h = d ∨ ∃ p, h = p ++ '.' :: d

/-- A cookie set by `host` with domain `d` (empty: none) is for the domain, if `host` is part of it, or
else for the host itself. -/
inductive Spec.Area where
  | host (h : Str)
  | domain (d : Str)
  deriving DecidableEq

/-- The area of a cookie that `host` sets with the domain of the provider. -/
def Spec.IsArea (d host : Str) : Spec.Area → Prop
  | .host h => d = [] ∧ h = host
  | .domain d' => d ≠ [] ∧ d' = d ∧ Spec.InDomain host d

def Spec.Covers : Spec.Area → Str → Prop
  | .host h, x => x = h
  | .domain d, x => Spec.InDomain x d

theorem domainMatch_iff (h d : Str) : domainMatch h d = true ↔ Spec.InDomain h d := by
  unfold domainMatch Spec.InDomain
  rw [Bool.or_eq_true, beq_iff_eq, List.isSuffixOf_iff_suffix]
  exact or_congr_right ⟨fun ⟨p, hp⟩ => ⟨p, hp.symm⟩, fun ⟨p, hp⟩ => ⟨p, hp.symm⟩⟩

/-- The area of stored cookies. -/
def area (d : Str) : Bool → Spec.Area
  | true => .host d
  | false => .domain d

theorem place_iff (host : Str) (sc : SetCookie) (d : Str) (ho : Bool) :
    place host sc = some (d, ho) ↔ Spec.IsArea sc.domain host (area d ho) := by
  unfold place
  by_cases h1 : sc.domain = []
  · rw [if_pos h1]
    cases ho <;> simp [area, Spec.IsArea, h1, eq_comm]
  · rw [if_neg h1]
    by_cases h2 : domainMatch host sc.domain = true
    · rw [if_pos h2]
      rw [domainMatch_iff] at h2
      cases ho <;> simp [area, Spec.IsArea, h1, h2, eq_comm]
    · rw [if_neg h2]
      rw [domainMatch_iff] at h2
      cases ho <;> simp [area, Spec.IsArea, h1, h2]

theorem mem_send {j : List Cookie} {host : Str} {now : Nat} {c : Cookie} :
    c ∈ send j host now ↔ c ∈ j ∧ Spec.Covers (area c.domain c.hostOnly) host ∧
      ∀ e, c.expires = some e → now < e := by
  unfold send
  rw [List.mem_filter, Bool.and_eq_true]
  refine and_congr_right fun _ => and_congr ?_ ?_
  · cases c.hostOnly
    · simp [area, Spec.Covers, domainMatch_iff]
    · simp [area, Spec.Covers]
  · cases c.expires <;> simp

/-- What a history did last to the login of an area: newest first, `none` if nothing or a logout. -/
inductive Spec.Last : Spec.Area → List Step → Cm → Nat → Nat → Prop where
  | login (a : Spec.Area) (h : List Step) (host : Str) (cm : Cm) (now id : Nat) :
      Spec.IsArea cm.domain host a → Spec.Last a (⟨host, .login cm now id⟩ :: h) cm now id
  | keep (a : Spec.Area) (h : List Step) (s : Step) (cm : Cm) (now id : Nat) :
      Spec.Last a h cm now id →
      (∀ cm' n' i', s.act = .login cm' n' i' → ¬ Spec.IsArea cm'.domain s.host a) →
      (∀ cm', s.act = .logout cm' → ¬ Spec.IsArea cm'.domain s.host a) →
      Spec.Last a (s :: h) cm now id

theorem area_inj {d d' : Str} {o o' : Bool} (h : area d o = area d' o') : d = d' ∧ o = o' := by
  cases o <;> cases o' <;> simp_all [area]

/-- The login cookies of the browser are exactly the last logins of their areas. -/
theorem auth_mem (h : List Step) (x : Cookie) (hx : x.name = "TLSPROXYAUTH") :
    x ∈ jar h ↔ ∃ cm now id, Spec.Last (area x.domain x.hostOnly) h cm now id ∧
      x.value = .login cm.provider cm.issuer (now + 72000) id ∧ x.expires = some (now + 86400) := by
  induction h with
  | nil =>
    constructor
    · intro h; simp [jar] at h
    · rintro ⟨_, _, _, h, -⟩; cases h
  | cons s h ih =>
    have hn := jar_nodup h
    -- a step that does not touch login cookies
    have skip : ∀ (sc : SetCookie), s.act.cookies = [sc] → sc.name ≠ "TLSPROXYAUTH" →
        (∀ cm' n' i', s.act ≠ .login cm' n' i') → (∀ cm', s.act ≠ .logout cm') →
        (x ∈ jar (s :: h) ↔ ∃ cm now id, Spec.Last (area x.domain x.hostOnly) (s :: h) cm now id ∧
          x.value = .login cm.provider cm.issuer (now + 72000) id ∧
          x.expires = some (now + 86400)) := by
      intro sc h1 h2 h3 h4
      have e1 : x ∈ jar (s :: h) ↔ x ∈ jar h := by
        show x ∈ s.act.cookies.foldl _ _ ↔ _
        rw [h1]
        show x ∈ store (jar h) s.host sc ↔ _
        rw [mem_store hn]
        constructor
        · rintro (⟨_, _, _, _, rfl⟩ | h)
          · exact absurd hx h2
          · exact h.1
        · intro hm
          refine Or.inr ⟨hm, fun d ho _ he => ?_⟩
          simp only [key, Prod.mk.injEq] at he
          exact h2 (he.1 ▸ hx)
      rw [e1, ih]
      constructor
      · rintro ⟨cm, now, id, h5, h6⟩
        exact ⟨cm, now, id, .keep _ _ _ _ _ _ h5 (fun _ _ _ e => absurd e (h3 _ _ _))
          (fun _ e => absurd e (h4 _)), h6⟩
      · rintro ⟨cm, now, id, h5, h6⟩
        cases h5 with
        | login _ _ host => exact absurd rfl (h3 cm now id)
        | keep _ _ _ _ _ h7 => exact ⟨cm, now, id, h7, h6⟩
    obtain ⟨host, act⟩ := s
    cases act with
    | idToken now id => exact skip _ rfl (by simp [idCookie]) (by simp) (by simp)
    | setNonce cm id => exact skip _ rfl (by simp [nonceCookie]) (by simp) (by simp)
    | takeNonce cm => exact skip _ rfl (by simp [takeNonce]) (by simp) (by simp)
    | session now id => exact skip _ rfl (by simp [sidCookie]) (by simp) (by simp)
    | login cm now id =>
      show x ∈ store (jar h) host (authCookie cm now id) ↔ _
      rw [mem_store hn]
      constructor
      · rintro (⟨d, ho, h1, -, rfl⟩ | ⟨h1, h2⟩)
        · rw [place_iff] at h1
          exact ⟨cm, now, id, .login _ _ _ _ _ _ h1, rfl, rfl⟩
        · obtain ⟨cm', now', id', h3, h4⟩ := ih.1 h1
          refine ⟨cm', now', id', .keep _ _ _ _ _ _ h3 ?_ (by simp), h4⟩
          intro cm'' n' i' he ha
          cases he
          exact h2 _ _ ((place_iff host (authCookie cm now id) _ _).2 ha) (by
            simp only [key, authCookie, hx])
      · rintro ⟨cm', now', id', h1, h2, h3⟩
        cases h1 with
        | login _ _ _ _ _ ha =>
          left
          refine ⟨x.domain, x.hostOnly, (place_iff host (authCookie cm now id) _ _).2 ha, rfl, ?_⟩
          cases x
          simp only [authCookie] at *
          simp [hx, h2, h3]
        | keep _ _ _ _ _ h4 h5 _ =>
          right
          refine ⟨ih.2 ⟨cm', now', id', h4, h2, h3⟩, fun d ho hp he => ?_⟩
          rw [place_iff] at hp
          simp only [key, Prod.mk.injEq] at he
          exact h5 cm now id rfl (he.2.1 ▸ he.2.2 ▸ hp)
    | logout cm =>
      show x ∈ store (store (jar h) host ⟨"TLSPROXYAUTH", cm.domain, .text 0, none, true⟩) host
        ⟨"TLSPROXYIDTOKEN", [], .text 0, none, true⟩ ↔ _
      rw [mem_store (store_nodup _ _ hn), mem_store hn]
      constructor
      · rintro (⟨_, _, _, h1, _⟩ | ⟨⟨_, _, _, h1, _⟩ | ⟨h1, h2⟩, -⟩)
        · cases h1
        · cases h1
        · obtain ⟨cm', now', id', h3, h4⟩ := ih.1 h1
          refine ⟨cm', now', id', .keep _ _ _ _ _ _ h3 (by simp) ?_, h4⟩
          intro cm'' he ha
          cases he
          exact h2 _ _ ((place_iff host ⟨"TLSPROXYAUTH", cm.domain, .text 0, none, true⟩ _ _).2 ha) (by
            simp only [key, hx])
      · rintro ⟨cm', now', id', h1, h2, h3⟩
        cases h1 with
        | keep _ _ _ _ _ h4 _ h5 =>
          right
          refine ⟨Or.inr ⟨ih.2 ⟨cm', now', id', h4, h2, h3⟩, fun d ho hp he => ?_⟩,
            fun d ho _ he => ?_⟩
          · rw [place_iff] at hp
            simp only [key, Prod.mk.injEq] at he
            exact h5 cm rfl (he.2.1 ▸ he.2.2 ▸ hp)
          · simp only [key, Prod.mk.injEq] at he
            exact absurd (hx.symm.trans he.1) (by decide)

theorem last_fn {a : Spec.Area} {h : List Step} {cm cm' : Cm} {n n' i i' : Nat}
    (h1 : Spec.Last a h cm n i) (h2 : Spec.Last a h cm' n' i') : cm = cm' ∧ n = n' ∧ i = i' := by
  induction h1 with
  | login h host cm now id ha =>
    cases h2 with
    | login => exact ⟨rfl, rfl, rfl⟩
    | keep _ _ _ _ _ _ h5 _ => exact absurd ha (h5 _ _ _ rfl)
  | keep h s cm now id h3 h4 _ ih =>
    cases h2 with
    | login _ _ _ _ _ ha => exact absurd ha (h4 _ _ _ rfl)
    | keep _ _ _ _ _ h6 _ _ => exact ih h6

/-- The last login of an area is in the history. -/
theorem last_mem {a : Spec.Area} {h : List Step} {cm : Cm} {n i : Nat} (h1 : Spec.Last a h cm n i) :
    ∃ host, ⟨host, .login cm n i⟩ ∈ h ∧ Spec.IsArea cm.domain host a := by
  induction h1 with
  | login h host cm now id ha => exact ⟨host, List.mem_cons_self, ha⟩
  | keep h s cm now id _ _ _ ih =>
    obtain ⟨host, h1, h2⟩ := ih
    exact ⟨host, List.mem_cons_of_mem _ h1, h2⟩

/-- C100: the login tokens in a request are exactly the last logins of the areas that contain the host:
the provider's domain, or the host of the login page if the provider has none. -/
theorem login_cookies_exact (h : List Step) (x : Str) (now : Nat) (p i : Str) (e id : Nat) :
    (∃ c ∈ send (jar h) x now, c.name = "TLSPROXYAUTH" ∧ c.value = .login p i e id) ↔
    ∃ a cm t, Spec.Last a h cm t id ∧ Spec.Covers a x ∧ now < t + 86400 ∧ e = t + 72000 ∧
      p = cm.provider ∧ i = cm.issuer := by
  constructor
  · rintro ⟨c, hc, hn, hv⟩
    obtain ⟨h1, h2, h3⟩ := mem_send.1 hc
    obtain ⟨cm, t, id', h4, h5, h6⟩ := (auth_mem h c hn).1 h1
    rw [hv] at h5
    cases h5
    exact ⟨_, cm, t, h4, h2, h3 _ h6, rfl, rfl, rfl⟩
  · rintro ⟨a, cm, t, h1, h2, h3, rfl, rfl, rfl⟩
    have : ∃ d ho, a = area d ho := by
      cases a with
      | host d => exact ⟨d, true, rfl⟩
      | domain d => exact ⟨d, false, rfl⟩
    obtain ⟨d, ho, rfl⟩ := this
    refine ⟨⟨"TLSPROXYAUTH", d, ho, .login cm.provider cm.issuer (t + 72000) id, some (t + 86400)⟩,
      mem_send.2 ⟨(auth_mem h _ rfl).2 ⟨cm, t, id, h1, rfl, rfl⟩, h2, ?_⟩, rfl, rfl⟩
    rintro e he
    cases he
    exact h3

theorem cookie_mem {cs : List Cookie} {n : String} {v : Val} (h : cookie cs n = some v) :
    ∃ c ∈ cs, c.name = n ∧ c.value = v := by
  unfold cookie at h
  cases hf : cs.find? fun c => decide (c.name = n) with
  | none => rw [hf] at h; cases h
  | some c =>
    rw [hf] at h
    cases h
    exact ⟨c, List.mem_of_find?_eq_some hf, by simpa using List.find?_some hf, rfl⟩

theorem loggedIn_some {cm : Cm} {h : List Step} {x : Str} {now id : Nat}
    (hl : loggedIn cm (jar h) x now = some id) :
    ∃ a cm' t, Spec.Last a h cm' t id ∧ Spec.Covers a x ∧ now < t + 72000 ∧
      cm'.provider = cm.provider ∧ cm'.issuer = cm.issuer := by
  unfold loggedIn at hl
  split at hl
  · rename_i p i e id' hc
    split at hl
    · rename_i hh
      cases hl
      obtain ⟨c, h1, h2, h3⟩ := cookie_mem hc
      obtain ⟨a, cm', t, h4, h5, -, rfl, rfl, rfl⟩ := (login_cookies_exact h x now _ _ _ _).1
        ⟨c, h1, h2, h3⟩
      exact ⟨a, cm', t, h4, h5, hh.1, hh.2.2, hh.2.1⟩
    · cases hl
  · cases hl

/-- C100: a login counts only for the provider that made it, for 20 hours, and on hosts of the provider's
domain (or the host of the login page if it has none). -/
theorem login_where (cm : Cm) (h : List Step) (x : Str) (now id : Nat)
    (hl : loggedIn cm (jar h) x now = some id) :
    ∃ cm' host t, ⟨host, .login cm' t id⟩ ∈ h ∧ cm'.provider = cm.provider ∧
      cm'.issuer = cm.issuer ∧ now < t + 72000 ∧
      (cm'.domain = [] ∧ x = host ∨
        cm'.domain ≠ [] ∧ Spec.InDomain x cm'.domain ∧ Spec.InDomain host cm'.domain) := by
  obtain ⟨a, cm', t, h1, h2, h3, h4, h5⟩ := loggedIn_some hl
  obtain ⟨host, h6, h7⟩ := last_mem h1
  refine ⟨cm', host, t, h6, h4, h5, h3, ?_⟩
  cases a with
  | host y =>
    obtain ⟨k1, rfl⟩ := h7
    exact Or.inl ⟨k1, h2⟩
  | domain d =>
    obtain ⟨k1, rfl, k3⟩ := h7
    exact Or.inr ⟨k1, h2, k3⟩

/-! ## C101 -/

theorem last_append {a : Spec.Area} {l h : List Step} {cm : Cm} {n i : Nat}
    (h1 : Spec.Last a (l ++ h) cm n i) :
    (∃ host, ⟨host, .login cm n i⟩ ∈ l) ∨ Spec.Last a h cm n i := by
  induction l with
  | nil => exact Or.inr h1
  | cons s l ih =>
    cases h1 with
    | login _ host => exact Or.inl ⟨host, List.mem_cons_self⟩
    | keep _ _ _ _ _ h2 _ _ =>
      rcases ih h2 with ⟨host, h3⟩ | h3
      · exact Or.inl ⟨host, List.mem_cons_of_mem _ h3⟩
      · exact Or.inr h3

/-- C101, if the provider's domain did not change since the user logged in: after a logout on `host`, and
until the next login with this provider, no request to `host` is taken as logged in, nor one to any other
host of the domain. -/
theorem logout_ends_partial (cm : Cm) (host : Str) (l h : List Step)
    (hdom : ∀ s ∈ h, ∀ cm' n i, s.act = .login cm' n i → cm'.provider = cm.provider →
      cm'.domain = cm.domain)
    (hl : ∀ s ∈ l, ∀ cm' n i, s.act = .login cm' n i → cm'.provider ≠ cm.provider)
    (x : Str) (hx : x = host ∨ cm.domain ≠ [] ∧ Spec.InDomain host cm.domain) (now : Nat) :
    loggedIn cm (jar (l ++ ⟨host, .logout cm⟩ :: h)) x now = none := by
  cases hc : loggedIn cm (jar (l ++ ⟨host, .logout cm⟩ :: h)) x now with
  | none => rfl
  | some id =>
    exfalso
    obtain ⟨a, cm', t, h1, h2, -, h4, -⟩ := loggedIn_some hc
    rcases last_append h1 with ⟨y, h5⟩ | h5
    · exact hl _ h5 _ _ _ rfl h4
    · cases h5 with
      | keep _ _ _ _ _ h6 _ h7 =>
        obtain ⟨y, h8, h9⟩ := last_mem h6
        have hd := hdom _ h8 _ _ _ rfl h4
        refine h7 cm rfl ?_
        rw [hd] at h9
        cases a with
        | host z =>
          obtain ⟨k1, rfl⟩ := h9
          rcases hx with rfl | hx
          · exact ⟨k1, h2.symm⟩
          · exact absurd k1 hx.1
        | domain d =>
          obtain ⟨k1, rfl, k3⟩ := h9
          rcases hx with rfl | hx
          · exact ⟨k1, rfl, h2⟩
          · exact ⟨k1, rfl, hx.2⟩

/-- All ID token cookies are for one host. -/
theorem id_hostOnly (h : List Step) (x : Cookie) (hx : x ∈ jar h) (hn : x.name = "TLSPROXYIDTOKEN") :
    x.hostOnly = true := by
  induction h with
  | nil => simp [jar] at hx
  | cons s h ih =>
    have hnd := jar_nodup h
    obtain ⟨host, act⟩ := s
    have one : ∀ sc : SetCookie, x ∈ store (jar h) host sc →
        (sc.name = "TLSPROXYIDTOKEN" → sc.domain = []) → x.hostOnly = true := by
      intro sc h1 h2
      rcases (mem_store hnd _ _ _).1 h1 with ⟨d, ho, h3, -, rfl⟩ | h3
      · rw [place_iff, h2 hn] at h3
        cases ho
        · exact absurd rfl h3.1
        · rfl
      · exact ih h3.1
    cases act with
    | idToken now id => exact one (idCookie now id) hx (fun _ => rfl)
    | setNonce cm id => exact one (nonceCookie cm id) hx (by simp [nonceCookie])
    | takeNonce cm => exact one (takeNonce cm) hx (by simp [takeNonce])
    | session now id => exact one (sidCookie now id) hx (by simp [sidCookie])
    | login cm now id => exact one (authCookie cm now id) hx (by simp [authCookie])
    | logout cm =>
      have hx' : x ∈ store (store (jar h) host ⟨"TLSPROXYAUTH", cm.domain, .text 0, none, true⟩) host
        ⟨"TLSPROXYIDTOKEN", [], .text 0, none, true⟩ := hx
      rw [mem_store (store_nodup _ _ hnd), mem_store hnd] at hx'
      rcases hx' with ⟨_, _, _, h1, _⟩ | ⟨⟨_, _, _, h1, _⟩ | ⟨h1, -⟩, -⟩
      · cases h1
      · cases h1
      · exact ih h1

/-- C101: a logout removes exactly the login of the provider's area and the ID token of the host; all
other cookies of the browser stay as they are. -/
theorem logout_exact (cm : Cm) (host : Str) (h : List Step) (x : Cookie) :
    x ∈ jar (⟨host, .logout cm⟩ :: h) ↔ x ∈ jar h ∧
      ¬ (x.name = "TLSPROXYAUTH" ∧ Spec.IsArea cm.domain host (area x.domain x.hostOnly)) ∧
      ¬ (x.name = "TLSPROXYIDTOKEN" ∧ x.domain = host) := by
  have hnd := jar_nodup h
  show x ∈ store (store (jar h) host ⟨"TLSPROXYAUTH", cm.domain, .text 0, none, true⟩) host
        ⟨"TLSPROXYIDTOKEN", [], .text 0, none, true⟩ ↔ _
  rw [mem_store (store_nodup _ _ hnd), mem_store hnd]
  constructor
  · rintro (⟨_, _, _, h1, _⟩ | ⟨⟨_, _, _, h1, _⟩ | ⟨h1, h2⟩, h3⟩)
    · cases h1
    · cases h1
    · refine ⟨h1, ?_, ?_⟩
      · rintro ⟨h4, h5⟩
        exact h2 _ _ ((place_iff host ⟨"TLSPROXYAUTH", cm.domain, .text 0, none, true⟩ _ _).2 h5)
          (by simp [key, h4])
      · rintro ⟨h4, h5⟩
        refine h3 host true rfl ?_
        simp only [key, h4, h5, id_hostOnly h x h1 h4]
  · rintro ⟨h1, h2, h3⟩
    right
    refine ⟨Or.inr ⟨h1, fun d ho hp he => ?_⟩, fun d ho hp he => ?_⟩
    · rw [place_iff] at hp
      simp only [key, Prod.mk.injEq] at he
      obtain ⟨k1, k2, k3⟩ := he
      exact h2 ⟨k1, by rw [k2, k3]; exact hp⟩
    · simp only [key, Prod.mk.injEq] at he
      obtain ⟨k1, k2, k3⟩ := he
      cases hp
      exact h3 ⟨k1, k2⟩

/-! ## C102 -/

/-- C102, if the browser has no login of another area that contains the host: a login is recognised on
every host of its area, until the next login or logout there, for 20 hours. -/
theorem login_recognised_partial (cm : Cm) (h : List Step) (a : Spec.Area) (t id : Nat)
    (hl : Spec.Last a h cm t id) (x : Str) (hx : Spec.Covers a x) (now : Nat) (hnow : now < t + 72000)
    (hother : ∀ a' cm' t' id', Spec.Last a' h cm' t' id' → Spec.Covers a' x → now < t' + 86400 →
      a' = a) : loggedIn cm (jar h) x now = some id := by
  obtain ⟨c0, h1, h2, h3⟩ := (login_cookies_exact h x now _ _ _ _).2
    ⟨a, cm, t, hl, hx, by omega, rfl, rfl, rfl⟩
  have : cookie (send (jar h) x now) "TLSPROXYAUTH" =
      some (.login cm.provider cm.issuer (t + 72000) id) := by
    unfold cookie
    cases hf : (send (jar h) x now).find? fun c => decide (c.name = "TLSPROXYAUTH") with
    | none =>
      rw [List.find?_eq_none] at hf
      exact absurd h2 (by simpa using hf c0 h1)
    | some c =>
      have hm := List.mem_of_find?_eq_some hf
      have hn : c.name = "TLSPROXYAUTH" := by simpa using List.find?_some hf
      obtain ⟨k1, k2, k3⟩ := mem_send.1 hm
      obtain ⟨cm', t', id', k4, k5, k6⟩ := (auth_mem h c hn).1 k1
      have e := hother _ cm' t' id' k4 k2 (k3 _ k6)
      rw [e] at k4
      obtain ⟨rfl, rfl, rfl⟩ := last_fn k4 hl
      rw [Option.map_some, k5]
  unfold loggedIn
  rw [this]
  dsimp only
  rw [if_pos ⟨hnow, rfl, rfl⟩]

namespace Ex

def top : Str := "example.com".toList
def www : Str := "www.example.com".toList
def a : Cm := ⟨"a".toList, "https://login.example.com/".toList, top⟩
def b : Cm := ⟨"b".toList, "https://www.example.com/".toList, www⟩
def a' : Cm := ⟨"a".toList, "https://login.example.com/".toList, www⟩
def login : Str := "login.example.com".toList

end Ex

/-- Non-vacuity: log in on the login host, be seen on the other host of the domain and nowhere else, log
out there. -/
example : loggedIn Ex.a (jar [⟨Ex.login, .login Ex.a 0 7⟩]) Ex.www 100 = some 7 ∧
    loggedIn Ex.a (jar [⟨Ex.login, .login Ex.a 0 7⟩]) Ex.www 72000 = none ∧
    loggedIn Ex.a (jar [⟨Ex.login, .login Ex.a 0 7⟩]) "badexample.com".toList 100 = none ∧
    loggedIn Ex.b (jar [⟨Ex.login, .login Ex.a 0 7⟩]) Ex.www 100 = none ∧
    loggedIn Ex.a (jar [⟨Ex.www, .logout Ex.a⟩, ⟨Ex.login, .login Ex.a 0 7⟩]) Ex.login 100 = none := by
  decide +kernel

example (now : Nat) : loggedIn Ex.a (jar ([⟨Ex.www, .login Ex.b 50 8⟩] ++
    ⟨Ex.www, .logout Ex.a⟩ :: [⟨Ex.login, .login Ex.a 0 7⟩])) Ex.login now = none := by
  refine logout_ends_partial _ _ _ _ (by simp) ?_ _ (Or.inr ⟨by decide, ?_⟩) _
  · intro s hs cm' n i he
    simp only [List.mem_singleton] at hs
    subst hs
    cases he
    decide
  · rw [← domainMatch_iff]
    decide

example : loggedIn Ex.a (jar [⟨Ex.login, .login Ex.a 0 7⟩]) Ex.www 100 = some 7 := by
  refine login_recognised_partial Ex.a _ (.domain Ex.top) 0 7 (.login _ _ _ _ _ _ ?_) _ ?_ _ (by omega) ?_
  · refine ⟨by decide, rfl, ?_⟩
    rw [← domainMatch_iff]
    decide
  · show Spec.InDomain _ _
    rw [← domainMatch_iff]
    decide
  · intro a' cm' t' id' h _ _
    cases h with
    | login _ _ _ _ _ ha =>
      cases a' with
      | host y => exact absurd ha.1 (by decide)
      | domain d => exact congrArg _ ha.2.1
    | keep _ _ _ _ _ h => cases h

/-- C101 does not hold when the domain of the provider is changed between login and logout: the cookie of
the old domain stays, and so does the login. -/
theorem logout_ends_violated : ∃ cm cm' host h,
    cm'.provider = cm.provider ∧ cm'.issuer = cm.issuer ∧ Spec.InDomain host cm.domain ∧
    loggedIn cm (jar (⟨host, .logout cm⟩ :: ⟨h, .login cm' 0 7⟩ :: [])) host 100 = some 7 :=
  ⟨Ex.a', Ex.a, Ex.www, Ex.login, rfl, rfl, Or.inl rfl, by decide +kernel⟩

/-- C102 does not hold for two providers with overlapping domains: a user who is logged in with provider
`a` of `example.com` logs in with provider `b` of `www.example.com`, and is not recognised: the browser
sends both cookies, the older one first, and only the first one is looked at. Another login does not
help. -/
theorem login_recognised_violated : ∃ a b hosta hostb x, Spec.InDomain x b.domain ∧
    ∀ n, loggedIn b (jar (List.replicate n ⟨hostb, .login b 50 8⟩ ++
      [⟨hosta, .login a 0 7⟩])) x 100 = none := by
  refine ⟨Ex.a, Ex.b, Ex.login, Ex.www, Ex.www, Or.inl rfl, fun n => ?_⟩
  cases n with
  | zero => decide +kernel
  | succ n =>
    have : jar (List.replicate (n + 1) ⟨Ex.www, .login Ex.b 50 8⟩ ++ [⟨Ex.login, .login Ex.a 0 7⟩]) =
        jar [⟨Ex.www, .login Ex.b 50 8⟩, ⟨Ex.login, .login Ex.a 0 7⟩] := by
      induction n with
      | zero => rfl
      | succ n ih =>
        rw [List.replicate_succ, List.cons_append, jar, ih]
        decide +kernel
    rw [this]
    decide +kernel

/-! ## C105 -/

/-- What the answers of host `x` last did to a value: newest first. `set` says what an answer sets it to
and when, `unset` that it is removed. -/
inductive Spec.LastAt (set : Act → Option (Nat × Nat)) (unset : Act → Bool) (x : Str) :
    List Step → Nat → Nat → Prop where
  | set (h : List Step) (act : Act) (now id : Nat) : set act = some (now, id) →
      Spec.LastAt set unset x (⟨x, act⟩ :: h) now id
  | keep (h : List Step) (s : Step) (now id : Nat) : Spec.LastAt set unset x h now id →
      (s.host = x → set s.act = none ∧ unset s.act = false) → Spec.LastAt set unset x (s :: h) now id

/-- The answers that start a session (urltoken.go) and those that issue an ID token, by what they do. -/
def Spec.session : Act → Option (Nat × Nat)
  | .session now id => some (now, id)
  | _ => none

def Spec.idToken : Act → Option (Nat × Nat)
  | .idToken now id => some (now, id)
  | _ => none

def Spec.isLogout : Act → Bool
  | .logout _ => true
  | _ => false

/-- A cookie name that is only ever written by host-only cookies, one per answer. -/
theorem own_mem (name : String) (life : Nat) (set : Act → Option (Nat × Nat)) (unset : Act → Bool)
    (hset : ∀ a now id, set a = some (now, id) →
      a.cookies = [⟨name, [], .text id, some (now + life), false⟩])
    (hunset : ∀ a, set a = none → unset a = true → ∃ pre, a.cookies = pre ++ [⟨name, [], .text 0, none, true⟩] ∧
      ∀ sc ∈ pre, sc.name ≠ name)
    (hnone : ∀ a, set a = none → unset a = false → ∀ sc ∈ a.cookies, sc.name ≠ name)
    (h : List Step) (x : Cookie) (hx : x.name = name) :
    x ∈ jar h ↔ x.hostOnly = true ∧ ∃ now id, Spec.LastAt set unset x.domain h now id ∧
      x.value = .text id ∧ x.expires = some (now + life) := by
  -- cookies of other names do not matter
  have skip : ∀ (host : Str) (scs : List SetCookie) (l : List Cookie), (l.map key).Nodup →
      (∀ sc ∈ scs, sc.name ≠ name) → (x ∈ scs.foldl (fun j sc => store j host sc) l ↔ x ∈ l) := by
    intro host scs
    induction scs with
    | nil => intro l _ _; exact Iff.rfl
    | cons sc t ih =>
      intro l hn hne
      rw [List.foldl_cons, ih _ (store_nodup host sc hn) (fun a ha => hne a (List.mem_cons_of_mem _ ha)),
        mem_store hn]
      have h2 := hne sc (by simp)
      constructor
      · rintro (⟨_, _, _, _, rfl⟩ | h)
        · exact absurd hx h2
        · exact h.1
      · intro hm
        refine Or.inr ⟨hm, fun d ho _ he => ?_⟩
        simp only [key, Prod.mk.injEq] at he
        exact h2 (he.1 ▸ hx)
  induction h with
  | nil =>
    constructor
    · intro h; simp [jar] at h
    · rintro ⟨_, _, _, h, -⟩; cases h
  | cons s h ih =>
    have hn := jar_nodup h
    obtain ⟨host, act⟩ := s
    cases hs : set act with
    | some p =>
      obtain ⟨now, id⟩ := p
      show x ∈ act.cookies.foldl _ _ ↔ _
      rw [hset act now id hs, List.foldl_cons, List.foldl_nil, mem_store hn]
      constructor
      · rintro (⟨d, ho, h1, -, rfl⟩ | ⟨h1, h2⟩)
        · cases h1
          exact ⟨rfl, now, id, .set _ _ _ _ hs, rfl, rfl⟩
        · obtain ⟨k1, n', i', k2, k3⟩ := ih.1 h1
          refine ⟨k1, n', i', .keep _ _ _ _ k2 ?_, k3⟩
          rintro rfl
          exact absurd (by simp [key, hx, k1]) (h2 x.domain true rfl)
      · rintro ⟨k1, n', i', k2, k3, k4⟩
        cases k2 with
        | set _ _ _ _ e =>
          rw [hs] at e
          cases e
          left
          refine ⟨x.domain, true, rfl, rfl, ?_⟩
          cases x
          simp only at k1 k3 k4 hx
          subst k1 k3 k4 hx
          rfl
        | keep _ _ _ _ k5 k6 =>
          right
          refine ⟨ih.2 ⟨k1, n', i', k5, k3, k4⟩, ?_⟩
          intro d ho hp he
          cases hp
          simp only [key, Prod.mk.injEq] at he
          have := (k6 he.2.1.symm).1
          rw [hs] at this
          cases this
    | none =>
      cases hu : unset act with
      | true =>
        obtain ⟨pre, hc, hpre⟩ := hunset act hs hu
        show x ∈ act.cookies.foldl _ _ ↔ _
        rw [hc, List.foldl_append, List.foldl_cons, List.foldl_nil, mem_store (foldl_nodup _ _ hn),
          skip host pre _ hn hpre]
        constructor
        · rintro (⟨_, _, _, h1, _⟩ | ⟨h1, h2⟩)
          · cases h1
          · obtain ⟨k1, n', i', k2, k3⟩ := ih.1 h1
            refine ⟨k1, n', i', .keep _ _ _ _ k2 ?_, k3⟩
            rintro rfl
            exact absurd (by simp [key, hx, k1]) (h2 x.domain true rfl)
        · rintro ⟨k1, n', i', k2, k3⟩
          cases k2 with
          | set _ _ _ _ e => rw [hs] at e; cases e
          | keep _ _ _ _ k5 k6 =>
            right
            refine ⟨ih.2 ⟨k1, n', i', k5, k3⟩, ?_⟩
            intro d ho hp he
            cases hp
            simp only [key, Prod.mk.injEq] at he
            have := (k6 he.2.1.symm).2
            rw [hu] at this
            cases this
      | false =>
        show x ∈ act.cookies.foldl _ _ ↔ _
        refine (skip host _ _ hn (hnone act hs hu)).trans (ih.trans (and_congr_right fun k1 => ?_))
        constructor
        · rintro ⟨n', i', k2, k3⟩
          exact ⟨n', i', .keep _ _ _ _ k2 (fun _ => ⟨hs, hu⟩), k3⟩
        · rintro ⟨n', i', k2, k3⟩
          cases k2 with
          | set _ _ _ _ e => rw [hs] at e; cases e
          | keep _ _ _ _ k5 _ => exact ⟨n', i', k5, k3⟩

theorem own_send (name : String) (life : Nat) (set : Act → Option (Nat × Nat)) (unset : Act → Bool)
    (hset : ∀ a now id, set a = some (now, id) →
      a.cookies = [⟨name, [], .text id, some (now + life), false⟩])
    (hunset : ∀ a, set a = none → unset a = true → ∃ pre, a.cookies = pre ++ [⟨name, [], .text 0, none, true⟩] ∧
      ∀ sc ∈ pre, sc.name ≠ name)
    (hnone : ∀ a, set a = none → unset a = false → ∀ sc ∈ a.cookies, sc.name ≠ name)
    (h : List Step) (x : Str) (now : Nat) (v : Val) :
    (∃ c ∈ send (jar h) x now, c.name = name ∧ c.value = v) ↔
    ∃ t id, Spec.LastAt set unset x h t id ∧ now < t + life ∧ v = .text id := by
  constructor
  · rintro ⟨c, hc, hn, rfl⟩
    obtain ⟨h1, h2, h3⟩ := mem_send.1 hc
    obtain ⟨k1, t, id, k2, k3, k4⟩ := (own_mem name life set unset hset hunset hnone h c hn).1 h1
    rw [k1] at h2
    have h2 : x = c.domain := h2
    rw [← h2] at k2
    exact ⟨t, id, k2, h3 _ k4, k3⟩
  · rintro ⟨t, id, h1, h2, rfl⟩
    refine ⟨⟨name, x, true, .text id, some (t + life)⟩, mem_send.2 ⟨?_, rfl, ?_⟩, rfl, rfl⟩
    · exact (own_mem name life set unset hset hunset hnone h _ rfl).2 ⟨rfl, t, id, h1, rfl, rfl⟩
    · rintro e he
      cases he
      exact h2

/-- C105: the session identifier in a request to a host is the one that this very host set last, for 30
days. No login, logout or other host changes it. -/
theorem session_exact (h : List Step) (x : Str) (now : Nat) (v : Val) :
    (∃ c ∈ send (jar h) x now, c.name = "TLSPROXYSID" ∧ c.value = v) ↔
    ∃ t id, Spec.LastAt Spec.session (fun _ => false) x h t id ∧ now < t + 30 * 86400 ∧ v = .text id := by
  refine own_send _ _ _ _ ?_ ?_ ?_ h x now v
  · intro a n i ha
    cases a <;> simp only [Spec.session, reduceCtorEq, Option.some.injEq, Prod.mk.injEq] at ha
    obtain ⟨rfl, rfl⟩ := ha
    rfl
  · intro a _ hu; cases hu
  · intro a ha _ sc hsc
    cases a <;> simp only [Spec.session, reduceCtorEq] at ha <;>
      simp only [Act.cookies, clear, List.mem_cons, List.not_mem_nil, or_false] at hsc
    all_goals first
      | (subst hsc; simp [authCookie, idCookie, nonceCookie, takeNonce])
      | (rcases hsc with rfl | rfl <;> simp)

/-- C105: the ID token in a request to a host is the one that this very host set last, for 24 hours, unless
the user logged out there since. -/
theorem id_token_exact (h : List Step) (x : Str) (now : Nat) (v : Val) :
    (∃ c ∈ send (jar h) x now, c.name = "TLSPROXYIDTOKEN" ∧ c.value = v) ↔
    ∃ t id, Spec.LastAt Spec.idToken Spec.isLogout x h t id ∧ now < t + 86400 ∧ v = .text id := by
  refine own_send _ _ _ _ ?_ ?_ ?_ h x now v
  · intro a n i ha
    cases a <;> simp only [Spec.idToken, reduceCtorEq, Option.some.injEq, Prod.mk.injEq] at ha
    obtain ⟨rfl, rfl⟩ := ha
    rfl
  · intro a hx hu
    cases a <;> simp only [Spec.isLogout, Bool.false_eq_true] at hu
    rename_i cm
    exact ⟨[⟨"TLSPROXYAUTH", cm.domain, .text 0, none, true⟩], rfl, by simp⟩
  · intro a ha hu sc hsc
    cases a <;> simp only [Spec.idToken, Spec.isLogout, reduceCtorEq] at ha hu <;>
      simp only [Act.cookies, List.mem_cons, List.not_mem_nil, or_false] at hsc
    all_goals (subst hsc; simp [authCookie, sidCookie, nonceCookie, takeNonce])

/-- Non-vacuity: a session survives a login and a logout, the ID token does not. -/
example :
    (∃ c ∈ send (jar [⟨Ex.www, .logout Ex.a⟩, ⟨Ex.www, .login Ex.a 20 7⟩, ⟨Ex.www, .session 10 5⟩]) Ex.www 100,
      c.name = "TLSPROXYSID" ∧ c.value = .text 5) ∧
    ¬ (∃ c ∈ send (jar [⟨Ex.www, .logout Ex.a⟩, ⟨Ex.www, .idToken 20 7⟩]) Ex.www 100,
      c.name = "TLSPROXYIDTOKEN" ∧ c.value = .text 7) := by
  decide +kernel

/-! ## The nonce that ties a login attempt to the browser -/

/-- The nonce that a history left in an area: set there and neither replaced nor taken since. -/
inductive Spec.Nonce (a : Spec.Area) : List Step → Nat → Prop where
  | set (h : List Step) (host : Str) (cm : Cm) (id : Nat) :
      Spec.IsArea cm.domain host a → Spec.Nonce a (⟨host, .setNonce cm id⟩ :: h) id
  | keep (h : List Step) (s : Step) (id : Nat) : Spec.Nonce a h id →
      (∀ cm i, s.act = .setNonce cm i → ¬ Spec.IsArea cm.domain s.host a) →
      (∀ cm, s.act = .takeNonce cm → ¬ Spec.IsArea cm.domain s.host a) →
      Spec.Nonce a (s :: h) id

theorem skip_name {name : String} {x : Cookie} (hx : x.name = name) (host : Str) (scs : List SetCookie) :
    ∀ l : List Cookie, (l.map key).Nodup → (∀ sc ∈ scs, sc.name ≠ name) →
      (x ∈ scs.foldl (fun j sc => store j host sc) l ↔ x ∈ l) := by
  induction scs with
  | nil => intro l _ _; exact Iff.rfl
  | cons sc t ih =>
    intro l hn hne
    rw [List.foldl_cons, ih _ (store_nodup host sc hn) (fun a ha => hne a (List.mem_cons_of_mem _ ha)),
      mem_store hn]
    have h2 := hne sc (by simp)
    constructor
    · rintro (⟨_, _, _, _, rfl⟩ | h)
      · exact absurd hx h2
      · exact h.1
    · intro hm
      refine Or.inr ⟨hm, fun d ho _ he => ?_⟩
      simp only [key, Prod.mk.injEq] at he
      exact h2 (he.1 ▸ hx)

theorem nonce_other {act : Act} (h1 : ∀ cm i, act ≠ .setNonce cm i) (h2 : ∀ cm, act ≠ .takeNonce cm) :
    ∀ sc ∈ act.cookies, sc.name ≠ "TLSPROXYNONCE" := by
  intro sc hsc
  cases act with
  | setNonce cm i => exact absurd rfl (h1 cm i)
  | takeNonce cm => exact absurd rfl (h2 cm)
  | logout cm =>
    simp only [Act.cookies, clear, List.mem_cons, List.not_mem_nil, or_false] at hsc
    rcases hsc with rfl | rfl <;> simp
  | _ =>
    simp only [Act.cookies, List.mem_cons, List.not_mem_nil, or_false] at hsc
    subst hsc
    simp [authCookie, idCookie, sidCookie]

theorem nonce_mem (h : List Step) (x : Cookie) (hx : x.name = "TLSPROXYNONCE") :
    x ∈ jar h ↔ ∃ id, Spec.Nonce (area x.domain x.hostOnly) h id ∧ x.value = .text id ∧
      x.expires = none := by
  induction h with
  | nil =>
    constructor
    · intro h; simp [jar] at h
    · rintro ⟨_, h, -⟩; cases h
  | cons s h ih =>
    have hn := jar_nodup h
    obtain ⟨host, act⟩ := s
    show x ∈ act.cookies.foldl (fun j sc => store j host sc) (jar h) ↔ _
    by_cases hs : ∃ cm i, act = .setNonce cm i
    · obtain ⟨cm, i, rfl⟩ := hs
      show x ∈ store (jar h) host (nonceCookie cm i) ↔ _
      rw [mem_store hn]
      simp only [place_iff]
      constructor
      · rintro (⟨d, ho, h1, -, rfl⟩ | ⟨h1, h2⟩)
        · exact ⟨i, .set _ _ _ _ h1, rfl, rfl⟩
        · obtain ⟨i', k1, k2⟩ := ih.1 h1
          refine ⟨i', .keep _ _ _ k1 ?_ (fun _ e => nomatch e), k2⟩
          rintro cm' i'' e hia
          cases e
          exact h2 x.domain x.hostOnly hia (by simp [key, hx, nonceCookie])
      · rintro ⟨i', k1, k2, k3⟩
        by_cases hia : Spec.IsArea cm.domain host (area x.domain x.hostOnly)
        · left
          refine ⟨x.domain, x.hostOnly, hia, rfl, ?_⟩
          cases k1 with
          | set _ _ _ _ _ =>
            cases x
            simp only at hx k2 k3
            subst hx k2 k3
            rfl
          | keep _ _ _ _ k5 _ => exact absurd hia (k5 cm i rfl)
        · right
          cases k1 with
          | set _ _ _ _ k4 => exact absurd k4 hia
          | keep _ _ _ k4 _ _ =>
            refine ⟨ih.2 ⟨i', k4, k2, k3⟩, ?_⟩
            intro d ho hia' he
            simp only [key, Prod.mk.injEq] at he
            rw [he.2.1, he.2.2] at hia
            exact hia hia'
    by_cases ht : ∃ cm, act = .takeNonce cm
    · obtain ⟨cm, rfl⟩ := ht
      show x ∈ store (jar h) host (takeNonce cm) ↔ _
      rw [mem_store hn]
      simp only [place_iff]
      constructor
      · rintro (⟨d, ho, -, h1, -⟩ | ⟨h1, h2⟩)
        · cases h1
        · obtain ⟨i', k1, k2⟩ := ih.1 h1
          refine ⟨i', .keep _ _ _ k1 (fun _ _ e => nomatch e) ?_, k2⟩
          rintro cm' e hia
          cases e
          exact h2 x.domain x.hostOnly hia (by simp [key, hx, takeNonce])
      · rintro ⟨i', k1, k2, k3⟩
        right
        cases k1 with
        | keep _ _ _ k4 _ k6 =>
          refine ⟨ih.2 ⟨i', k4, k2, k3⟩, ?_⟩
          intro d ho hia he
          simp only [key, Prod.mk.injEq] at he
          have := k6 cm rfl
          rw [he.2.1, he.2.2] at this
          exact this hia
    · rw [skip_name hx host _ _ hn (nonce_other (fun cm i e => hs ⟨cm, i, e⟩) (fun cm e => ht ⟨cm, e⟩)), ih]
      constructor
      · rintro ⟨i, k1, k2⟩
        exact ⟨i, .keep _ _ _ k1 (fun cm i e => absurd ⟨cm, i, e⟩ hs) (fun cm e => absurd ⟨cm, e⟩ ht), k2⟩
      · rintro ⟨i, k1, k2⟩
        cases k1 with
        | set _ _ _ _ _ => exact absurd ⟨_, _, rfl⟩ hs
        | keep _ _ _ k4 _ _ => exact ⟨i, k4, k2⟩

/-- C105: the nonces in a request to a host are those of the areas it belongs to: each the one that was set
there last, unless it was taken since. A nonce is therefore presented after the login attempt that made it,
at any time later, and never again once it was taken. -/
theorem nonce_exact (h : List Step) (x : Str) (now : Nat) (v : Val) :
    (∃ c ∈ send (jar h) x now, c.name = "TLSPROXYNONCE" ∧ c.value = v) ↔
    ∃ a id, Spec.Nonce a h id ∧ Spec.Covers a x ∧ v = .text id := by
  constructor
  · rintro ⟨c, hc, hn, rfl⟩
    rw [mem_send] at hc
    obtain ⟨id, h1, h2, -⟩ := (nonce_mem h c hn).1 hc.1
    exact ⟨_, id, h1, hc.2.1, h2⟩
  · rintro ⟨a, id, h1, h2, rfl⟩
    cases a with
    | host d =>
      exact ⟨⟨"TLSPROXYNONCE", d, true, .text id, none⟩,
        mem_send.2 ⟨(nonce_mem h _ rfl).2 ⟨id, h1, rfl, rfl⟩, h2, fun _ e => nomatch e⟩, rfl, rfl⟩
    | domain d =>
      exact ⟨⟨"TLSPROXYNONCE", d, false, .text id, none⟩,
        mem_send.2 ⟨(nonce_mem h _ rfl).2 ⟨id, h1, rfl, rfl⟩, h2, fun _ e => nomatch e⟩, rfl, rfl⟩

/-- Non-vacuity: a nonce outlives other cookies of the host and is gone after it was taken. -/
example :
    (∃ c ∈ send (jar [⟨Ex.www, .login Ex.a 20 7⟩, ⟨Ex.www, .setNonce Ex.a 5⟩]) Ex.www 100,
      c.name = "TLSPROXYNONCE" ∧ c.value = .text 5) ∧
    ¬ (∃ c ∈ send (jar [⟨Ex.www, .takeNonce Ex.a⟩, ⟨Ex.www, .setNonce Ex.a 5⟩]) Ex.www 100,
      c.name = "TLSPROXYNONCE" ∧ c.value = .text 5) := by
  decide +kernel

end Verif.Cookies
