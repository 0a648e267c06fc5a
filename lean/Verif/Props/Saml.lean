import Verif.Model.Saml

/-!
# C60, C89, C90: SAML
-/

namespace Verif.Saml

theorem lookup_mem {l : List (Nat × Pending)} {k : Nat} {p : Pending} (h : lookup l k = some p) :
    (k, p) ∈ l := by
  unfold lookup at h
  induction l with
  | nil => cases h
  | cons a l ih =>
    obtain ⟨x, y⟩ := a
    rw [List.lookup_cons] at h
    split at h
    · rename_i he
      simp only [beq_iff_eq] at he
      cases h
      subst he
      exact List.mem_cons_self
    · exact List.mem_cons_of_mem _ (ih h)

theorem mem_del {l : List (Nat × Pending)} {k : Nat} {x : Nat × Pending} :
    x ∈ del l k ↔ x ∈ l ∧ x.1 ≠ k := by
  unfold del
  rw [List.mem_filter]
  simp

/-- The checks on the assertion that the code makes: the window includes its end. -/
structure Spec.Addressed (cfg : Config) (a : Assertion) (now : Nat) : Prop where
  recipient : a.recipient = cfg.acsURL
  audience : a.audience = "https://".toList ++ cfg.host ++ "/".toList
  subject : a.nameID ≠ []
  notBefore : ∃ t, a.notBefore = some t ∧ t ≤ now
  notAfter : ∃ t, a.notOnOrAfter = some t ∧ now ≤ t

theorem accept_spec (cfg : Config) (a : Assertion) (now : Nat) :
    accept cfg a now = true ↔ Spec.Addressed cfg a now := by
  unfold accept
  constructor
  · intro h
    split at h
    · cases h
    · rename_i h1
      split at h
      · cases h
      · rename_i h2
        split at h
        · cases h
        · rename_i t ht
          split at h
          · cases h
          · rename_i h3
            split at h
            · cases h
            · rename_i t' ht'
              split at h
              · cases h
              · rename_i h4
                refine ⟨Decidable.not_not.1 h1, Decidable.not_not.1 h2, ?_, ⟨t, ht, by omega⟩,
                  ⟨t', ht', by omega⟩⟩
                intro he
                rw [he] at h
                cases h
  · rintro ⟨h1, h2, h3, ⟨t, ht, h4⟩, ⟨t', ht', h5⟩⟩
    rw [if_neg (not_not_intro h1), if_neg (not_not_intro (show a.audience = cfg.self from h2)), ht]
    dsimp only
    rw [if_neg (by omega), ht']
    dsimp only
    rw [if_neg (by omega)]
    cases hn : a.nameID with
    | nil => exact absurd hn h3
    | cons x xs => rfl

/-- What must hold of the earlier log when an event happens. -/
def Cond (cfg : Config) (validate : Nat → Option Assertion) : Event → List Event → Prop
  | .requested .., _ => True
  | .login id _ sub host url doc now, l =>
    (∃ a, validate doc = some a ∧ a.inResponseTo = some id ∧ a.nameID = sub ∧
      Spec.Addressed cfg a now) ∧
    (∃ b t t0, Event.requested id b url host t0 ∈ l ∧ t ≤ t0 + 300 ∧ t ≤ now) ∧
    ∀ b' s h u d t, Event.login id b' s h u d t ∉ l

def LogOk (cfg : Config) (validate : Nat → Option Assertion) : List Event → Prop
  | [] => True
  | e :: l => Cond cfg validate e l ∧ LogOk cfg validate l

theorem logOk_split {cfg : Config} {validate : Nat → Option Assertion} {e : Event}
    {l1 l2 : List Event} (h : LogOk cfg validate (l1 ++ e :: l2)) : Cond cfg validate e l2 := by
  induction l1 with
  | nil => exact h.1
  | cons a l ih => exact ih h.2

structure Inv (cfg : Config) (validate : Nat → Option Assertion) (s : State) : Prop where
  log : LogOk cfg validate s.log
  requested : ∀ k p, (k, p) ∈ s.states → ∃ b, Event.requested k b p.url p.host p.created ∈ s.log
  unused : ∀ k p, (k, p) ∈ s.states → ∀ b s' h u d t, Event.login k b s' h u d t ∉ s.log

/-- Request ids are random, never the same twice; the clock does not go backwards during a
callback. -/
def Pre (s : State) : Op → Prop
  | .request _ id _ _ _ => ∀ b u h t, Event.requested id b u h t ∉ s.log
  | .callback _ _ _ t now => t ≤ now

def WF (cfg : Config) (validate : Nat → Option Assertion) : State → List Op → Prop
  | _, [] => True
  | s, o :: os => Pre s o ∧ WF cfg validate (step cfg validate s o) os

theorem login_requested {cfg : Config} {validate : Nat → Option Assertion} {l : List Event}
    (h : LogOk cfg validate l) {id b : Nat} {s hh u : Str} {d t : Nat}
    (hm : Event.login id b s hh u d t ∈ l) : ∃ b t0, Event.requested id b u hh t0 ∈ l := by
  obtain ⟨l1, l2, rfl⟩ := List.append_of_mem hm
  obtain ⟨-, ⟨b', -, t0, h1, -⟩, -⟩ := logOk_split h
  exact ⟨b', t0, List.mem_append_right _ (List.mem_cons_of_mem _ h1)⟩

theorem inv_sub {cfg : Config} {validate : Nat → Option Assertion} {s : State}
    (h : Inv cfg validate s) {st : List (Nat × Pending)} (hsub : ∀ x ∈ st, x ∈ s.states) :
    Inv cfg validate { s with states := st } :=
  ⟨h.log, fun k p hm => h.requested k p (hsub _ hm), fun k p hm => h.unused k p (hsub _ hm)⟩

theorem inv_step (cfg : Config) (validate : Nat → Option Assertion) {s : State}
    (h : Inv cfg validate s) (o : Op) (hp : Pre s o) : Inv cfg validate (step cfg validate s o) := by
  cases o with
  | request b id t url host =>
    refine ⟨⟨trivial, h.log⟩, ?_, ?_⟩
    · intro k p hm
      rcases List.mem_cons.1 hm with he | hm
      · cases he; exact ⟨b, List.mem_cons_self⟩
      · obtain ⟨b', hb⟩ := h.requested k p (mem_del.1 hm).1
        exact ⟨b', List.mem_cons_of_mem _ hb⟩
    · intro k p hm b' s' hh u d t' hl
      have hl : Event.login k b' s' hh u d t' ∈ s.log := by
        rcases List.mem_cons.1 hl with hl | hl
        · cases hl
        · exact hl
      rcases List.mem_cons.1 hm with he | hm
      · cases he
        obtain ⟨b'', t0, hr⟩ := login_requested h.log hl
        exact hp _ _ _ _ hr
      · exact h.unused k p (mem_del.1 hm).1 _ _ _ _ _ _ hl
  | callback b doc post t now =>
    unfold step
    dsimp only
    have hv : ∀ x ∈ vacuum t s.states, x ∈ s.states := fun x hx => (List.mem_filter.1 hx).1
    split
    · exact h
    · cases hva : validate doc with
      | none => exact h
      | some a =>
        dsimp only
        cases hin : a.inResponseTo with
        | none => exact inv_sub h hv
        | some id =>
          dsimp only
          cases hl : lookup (vacuum t s.states) id with
          | none => exact inv_sub h hv
          | some p =>
            dsimp only
            have hmem := lookup_mem hl
            have hmem' := hv _ hmem
            have hdel : ∀ x ∈ del (vacuum t s.states) id, x ∈ s.states ∧ x.1 ≠ id :=
              fun x hx => ⟨hv x (mem_del.1 hx).1, (mem_del.1 hx).2⟩
            split
            · rename_i hacc
              have hage : ¬ (p.created + 300 < t) := by
                have := (List.mem_filter.1 hmem).2
                simpa using this
              obtain ⟨b0, hreq⟩ := h.requested id p hmem'
              refine ⟨⟨⟨⟨a, hva, hin, rfl, (accept_spec cfg a now).1 hacc⟩,
                ⟨b0, t, p.created, hreq, by omega, hp⟩, h.unused id p hmem'⟩, h.log⟩, ?_, ?_⟩
              · intro k q hm
                obtain ⟨b', hb⟩ := h.requested k q (hdel _ hm).1
                exact ⟨b', List.mem_cons_of_mem _ hb⟩
              · intro k q hm b' s' hh u d t' hl'
                rcases List.mem_cons.1 hl' with he | hl'
                · cases he
                  exact (hdel _ hm).2 rfl
                · exact h.unused k q (hdel _ hm).1 _ _ _ _ _ _ hl'
            · exact inv_sub h (fun x hx => (hdel x hx).1)

theorem inv_run (cfg : Config) (validate : Nat → Option Assertion) (os : List Op) {s : State}
    (h : Inv cfg validate s) (hw : WF cfg validate s os) :
    Inv cfg validate (run cfg validate os s) := by
  induction os generalizing s with
  | nil => exact h
  | cons o os ih => exact ih (inv_step cfg validate h o hw.1) hw.2

/-- C60 (partial: the end of the validity window counts as inside; see
`saml_window_violated`). In every execution, a login through SAML uses a document whose assertion
carries a valid signature of the identity provider, is addressed to our endpoint and host, is
within its window, and answers a login request made at most five minutes before the callback; the
user is sent to the URL of that request, and the request is answered by no other login. -/
theorem saml_login_partial (cfg : Config) (validate : Nat → Option Assertion) (os : List Op)
    (hw : WF cfg validate init os) (l1 l2 : List Event) (id b : Nat) (sub host url : Str)
    (doc now : Nat)
    (h : (run cfg validate os init).log = l1 ++ Event.login id b sub host url doc now :: l2) :
    (∃ a, validate doc = some a ∧ a.inResponseTo = some id ∧ a.nameID = sub ∧
      a.recipient = cfg.acsURL ∧
      a.audience = "https://".toList ++ cfg.host ++ "/".toList ∧ sub ≠ [] ∧
      (∃ t, a.notBefore = some t ∧ t ≤ now) ∧ (∃ t, a.notOnOrAfter = some t ∧ now ≤ t)) ∧
    (∃ b' t t0, Event.requested id b' url host t0 ∈ l2 ∧ t ≤ t0 + 300 ∧ t ≤ now) ∧
    ∀ b' s h u d t, Event.login id b' s h u d t ∉ l1 ++ l2 := by
  have hi := inv_run cfg validate os (s := init)
    ⟨trivial, by simp [init], by simp [init]⟩ hw
  have hlog := hi.log
  rw [h] at hlog
  obtain ⟨⟨a, h1, h2, h3, h4⟩, h5, h6⟩ := logOk_split hlog
  refine ⟨⟨a, h1, h2, h3, h4.recipient, h4.audience, by rw [← h3]; exact h4.subject,
    h4.notBefore, h4.notAfter⟩, h5, ?_⟩
  intro b' s hh u d t hm
  rcases List.mem_append.1 hm with hm | hm
  · obtain ⟨x, y, rfl⟩ := List.append_of_mem hm
    rw [List.append_assoc, List.cons_append] at hlog
    obtain ⟨-, -, hno⟩ := logOk_split hlog
    exact hno b sub host url doc now (List.mem_append_right _ List.mem_cons_self)
  · exact h6 b' s hh u d t hm

namespace Ex

def cfg : Config := ⟨"https://login.example.com/saml".toList, "login.example.com".toList⟩

/-- Document 1 answers request 7, document 2 is for another service, document 3 is not signed. -/
def validate : Nat → Option Assertion
  | 1 => some ⟨some 7, "https://login.example.com/saml".toList,
      "https://login.example.com/".toList, some 5, some 200, "alice".toList⟩
  | 2 => some ⟨some 8, "https://login.example.com/saml".toList,
      "https://other/".toList, some 5, some 200, "alice".toList⟩
  | _ => none

def ops : List Op :=
  [ .request 1 7 0 "https://a/1".toList "a".toList,
    .request 1 8 0 "https://a/2".toList "a".toList,
    .callback 1 3 true 100 100,
    .callback 1 2 true 100 101,
    .callback 1 1 false 100 101,
    .callback 1 1 true 100 101,
    .callback 1 1 true 101 102 ]

end Ex

example : WF Ex.cfg Ex.validate init Ex.ops ∧ (run Ex.cfg Ex.validate Ex.ops init).log =
    [ .login 7 1 "alice".toList "a".toList "https://a/1".toList 1 101,
      .requested 8 1 "https://a/2".toList "a".toList 0,
      .requested 7 1 "https://a/1".toList "a".toList 0 ] := by
  refine ⟨?_, by decide +kernel⟩
  simp [Ex.ops, WF, Pre, step, init]

/-- C60. Every login is the effect of a document that was sent with POST; other requests to the
endpoint change nothing. -/
theorem saml_login_posted (cfg : Config) (validate : Nat → Option Assertion) (os : List Op)
    (id b : Nat) (sub host url : Str) (doc now : Nat)
    (h : Event.login id b sub host url doc now ∈ (run cfg validate os init).log) :
    ∃ t, Op.callback b doc true t now ∈ os := by
  have key : ∀ (os : List Op) (s : State),
      Event.login id b sub host url doc now ∈ (run cfg validate os s).log →
      Event.login id b sub host url doc now ∈ s.log ∨ ∃ t, Op.callback b doc true t now ∈ os := by
    intro os
    induction os with
    | nil => intro s h; exact .inl h
    | cons o os ih =>
      intro s h
      rcases ih _ h with h1 | ⟨t, ht⟩
      · replace h := h1
        clear h1
        have hstep : Event.login id b sub host url doc now ∈ s.log ∨
            ∃ t, o = Op.callback b doc true t now := by
          cases o with
          | request b' id' t' url' host' =>
            rcases List.mem_cons.1 h with h | h
            · cases h
            · exact .inl h
          | callback b' doc' post t' now' =>
            simp only [step] at h
            split at h
            · exact .inl h
            · rename_i hp
              have hp : post = true := by simpa using hp
              subst hp
              split at h
              · exact .inl h
              · split at h
                · exact .inl h
                · split at h
                  · exact .inl h
                  · split at h
                    · rcases List.mem_cons.1 h with h | h
                      · cases h
                        exact .inr ⟨_, rfl⟩
                      · exact .inl h
                    · exact .inl h
        rcases hstep with h | ⟨t, rfl⟩
        · exact .inl h
        · exact .inr ⟨t, List.mem_cons_self⟩
      · exact .inr ⟨t, List.mem_cons_of_mem _ ht⟩
  rcases key os init h with h | h
  · cases h
  · exact h

/-- C60, the missing part: an assertion is accepted at the very instant `NotOnOrAfter`. -/
theorem saml_window_violated :
    ∃ (os : List Op) (a : Assertion), WF Ex.cfg Ex.validate init os ∧
      Ex.validate 1 = some a ∧ a.notOnOrAfter = some 200 ∧
      (run Ex.cfg Ex.validate os init).log.head? =
        some (.login 7 1 "alice".toList "a".toList "https://a/1".toList 1 200) := by
  refine ⟨[.request 1 7 0 "https://a/1".toList "a".toList, .callback 1 1 true 200 200], _, ?_,
    rfl, rfl, by decide +kernel⟩
  simp [WF, Pre, step, init]

/-- C89 does not hold for SAML: nothing ties the answer to the browser that made the request. A
document obtained for browser 1 logs browser 2 in, as the user of browser 1. -/
theorem saml_browser_violated :
    ∃ (os : List Op) (id : Nat) (sub host url : Str) (doc now : Nat),
      WF Ex.cfg Ex.validate init os ∧
      Event.login id 2 sub host url doc now ∈ (run Ex.cfg Ex.validate os init).log ∧
      ∀ u h t, Event.requested id 2 u h t ∉ (run Ex.cfg Ex.validate os init).log := by
  refine ⟨[.request 1 7 0 "https://a/1".toList "a".toList, .callback 2 1 true 100 100], 7,
    "alice".toList, "a".toList, "https://a/1".toList, 1, 100, ?_, by decide +kernel, ?_⟩
  · simp [WF, Pre, step, init]
  · intro u h t hm
    have : (run Ex.cfg Ex.validate [.request 1 7 0 "https://a/1".toList "a".toList,
        .callback 2 1 true 100 100] init).log =
      [.login 7 2 "alice".toList "a".toList "https://a/1".toList 1 100,
       .requested 7 1 "https://a/1".toList "a".toList 0] := by decide +kernel
    rw [this] at hm
    simp at hm

/-- C89 (partial): it holds if the browsers deliver only documents that answer their own
requests. -/
def Own (validate : Nat → Option Assertion) (cfg : Config) : State → List Op → Prop
  | _, [] => True
  | s, o :: os =>
    (match o with
     | .callback b doc _ _ _ => ∀ a id, validate doc = some a → a.inResponseTo = some id →
         ∀ b' u h t, Event.requested id b' u h t ∈ s.log → b' = b
     | _ => True) ∧ Own validate cfg (step cfg validate s o) os

theorem saml_browser_partial (cfg : Config) (validate : Nat → Option Assertion) (os : List Op)
    (hw : WF cfg validate init os) (ho : Own validate cfg init os)
    (id b : Nat) (sub host url : Str) (doc now : Nat)
    (h : Event.login id b sub host url doc now ∈ (run cfg validate os init).log) :
    ∃ t, Event.requested id b url host t ∈ (run cfg validate os init).log := by
  have key : ∀ (os : List Op) (s : State), Inv cfg validate s → WF cfg validate s os →
      Own validate cfg s os →
      (∀ id b sub host url doc now, Event.login id b sub host url doc now ∈ s.log →
        ∃ t, Event.requested id b url host t ∈ s.log) →
      ∀ id b sub host url doc now,
        Event.login id b sub host url doc now ∈ (run cfg validate os s).log →
        ∃ t, Event.requested id b url host t ∈ (run cfg validate os s).log := by
    intro os
    induction os with
    | nil => intro s _ _ _ h; exact h
    | cons o os ih =>
      intro s hi hw ho h
      refine ih _ (inv_step cfg validate hi o hw.1) hw.2 ho.2 ?_
      cases o with
      | request b0 id0 t0 url0 host0 =>
        intro id b sub host url doc now hm
        rcases List.mem_cons.1 hm with hm | hm
        · cases hm
        · obtain ⟨t, ht⟩ := h _ _ _ _ _ _ _ hm
          exact ⟨t, List.mem_cons_of_mem _ ht⟩
      | callback b0 doc0 post t0 now0 =>
        have ho1 := ho.1
        dsimp only at ho1
        unfold step
        dsimp only
        split
        · exact h
        · cases hva : validate doc0 with
          | none => exact h
          | some a =>
            dsimp only
            cases hin : a.inResponseTo with
            | none => exact h
            | some id0 =>
              dsimp only
              cases hl : lookup (vacuum t0 s.states) id0 with
              | none => exact h
              | some p =>
                dsimp only
                split
                · intro id b sub host url doc now hm
                  rcases List.mem_cons.1 hm with hm | hm
                  · cases hm
                    obtain ⟨b', hb⟩ := hi.requested id0 p (List.mem_filter.1 (lookup_mem hl)).1
                    have := ho1 a id0 hva hin _ _ _ _ hb
                    subst this
                    exact ⟨p.created, List.mem_cons_of_mem _ hb⟩
                  · obtain ⟨t, ht⟩ := h _ _ _ _ _ _ _ hm
                    exact ⟨t, List.mem_cons_of_mem _ ht⟩
                · exact h
  exact key os init ⟨trivial, by simp [init], by simp [init]⟩ hw ho (by simp [init])
    id b sub host url doc now h

example : Own Ex.validate Ex.cfg init Ex.ops := by
  simp only [Ex.ops, Own, true_and, and_true]
  have hlog : ∀ s : State, (∀ id b u h t, Event.requested id b u h t ∈ s.log → b = 1) →
      ∀ o : Op, (match o with | .request b .. => b = 1 | _ => True) →
      ∀ id b u h t, Event.requested id b u h t ∈ (step Ex.cfg Ex.validate s o).log → b = 1 := by
    intro s hs o ho id b u h t hm
    cases o with
    | request b0 id0 t0 u0 h0 =>
      rcases List.mem_cons.1 hm with hm | hm
      · cases hm; exact ho
      · exact hs _ _ _ _ _ hm
    | callback b0 d0 p0 t0 n0 =>
      unfold step at hm
      dsimp only at hm
      repeat' split at hm
      all_goals first
        | exact hs _ _ _ _ _ hm
        | (rcases List.mem_cons.1 hm with hm | hm
           · cases hm
           · exact hs _ _ _ _ _ hm)
  have h0 : ∀ id b u h t, Event.requested id b u h t ∈ init.log → b = 1 := by simp [init]
  have h1 := hlog _ h0 (.request 1 7 0 "https://a/1".toList "a".toList) rfl
  have h2 := hlog _ h1 (.request 1 8 0 "https://a/2".toList "a".toList) rfl
  have h3 := hlog _ h2 (.callback 1 3 true 100 100) trivial
  have h4 := hlog _ h3 (.callback 1 2 true 100 101) trivial
  have h5 := hlog _ h4 (.callback 1 1 false 100 101) trivial
  have h6 := hlog _ h5 (.callback 1 1 true 100 101) trivial
  exact ⟨fun _ _ _ _ => h2 _, fun _ _ _ _ => h3 _, fun _ _ _ _ => h4 _, fun _ _ _ _ => h5 _,
    fun _ _ _ _ => h6 _⟩

/-! ## C90: the identity provider's certificates -/

/-- A text that is a sequence of PEM blocks followed by `tail`. -/
inductive Spec.Pem (decode : Str → Option (Block × Str)) (tail : Str) :
    Str → List Block → Prop where
  | nil : Pem decode tail tail []
  | cons {b rest blk bs} : b ≠ [] → decode b = some (blk, rest) → rest.length < b.length →
      Pem decode tail rest bs → Pem decode tail b (blk :: bs)

/-- The outcome for a text of blocks and a rest that is empty or contains no block. -/
theorem readCerts_spec (decode : Str → Option (Block × Str)) (parse : Nat → Option Nat)
    (tail b : Str) (bs : List Block) (ht : tail = [] ∨ decode tail = none)
    (h : Spec.Pem decode tail b bs) :
    readCerts decode parse b.length b [] =
      match (bs.filter (·.isCert)).mapM (fun blk => parse blk.bytes) with
      | none => .err
      | some cs => if tail = [] then .ok cs else .panic := by
  have key : ∀ n acc, b.length ≤ n → readCerts decode parse n b acc =
      match (bs.filter (·.isCert)).mapM (fun blk => parse blk.bytes) with
      | none => .err
      | some cs => if tail = [] then .ok (acc.reverse ++ cs) else .panic := by
    induction h with
    | nil =>
      intro n acc hn
      cases tail with
      | nil => unfold readCerts; simp
      | cons x xs =>
        cases n with
        | zero => simp at hn
        | succ n =>
          rcases ht with ht | ht
          · cases ht
          · unfold readCerts
            rw [ht]
            simp
    | @cons b rest blk bs hne hd hlen _ ih =>
      intro n acc hn
      cases n with
      | zero =>
        have : b.length = 0 := by omega
        exact absurd (List.length_eq_zero_iff.1 this) hne
      | succ n =>
        cases b with
        | nil => exact absurd rfl hne
        | cons x b =>
          unfold readCerts
          rw [hd]
          dsimp only
          by_cases hc : blk.isCert = true
          · rw [if_pos hc, List.filter_cons_of_pos hc, List.mapM_cons]
            cases parse blk.bytes with
            | none => rfl
            | some c =>
              dsimp only
              rw [ih n (c :: acc) (by simp only [List.length_cons] at hlen hn; omega)]
              cases (bs.filter (·.isCert)).mapM (fun blk => parse blk.bytes) with
              | none => rfl
              | some cs => simp
          · rw [if_neg hc, List.filter_cons_of_neg hc]
            exact ih n acc (by simp only [List.length_cons] at hlen hn; omega)
  have := key b.length [] (Nat.le_refl _)
  rw [this]
  cases (bs.filter (·.isCert)).mapM (fun blk => parse blk.bytes) <;> simp

/-- C90 (partial: nothing follows the last block; otherwise see `readCerts_violated`). The result
is exactly the certificates of the text, in order, and an error if one of them does not parse. -/
theorem readCerts_partial (decode : Str → Option (Block × Str)) (parse : Nat → Option Nat)
    (b : Str) (bs : List Block) (h : Spec.Pem decode [] b bs) :
    readCerts decode parse b.length b [] =
      match (bs.filter (·.isCert)).mapM (fun blk => parse blk.bytes) with
      | none => .err
      | some cs => .ok cs :=
  readCerts_spec decode parse [] b bs (Or.inl rfl) h

/-- C90 does not hold: any text of valid certificates that ends in something that is not a PEM
block (an empty line, a comment) makes the configuration panic instead of being accepted or
reported. -/
theorem readCerts_violated (decode : Str → Option (Block × Str)) (parse : Nat → Option Nat)
    (b : Str) (bs : List Block) (tail : Str) (ht : tail ≠ []) (hd : decode tail = none)
    (h : Spec.Pem decode tail b bs)
    (hp : ∀ blk ∈ bs, blk.isCert = true → (parse blk.bytes).isSome) :
    readCerts decode parse b.length b [] = .panic := by
  rw [readCerts_spec decode parse tail b bs (Or.inr hd) h]
  have : ∃ cs, (bs.filter (·.isCert)).mapM (fun blk => parse blk.bytes) = some cs := by
    clear h
    induction bs with
    | nil => exact ⟨[], rfl⟩
    | cons blk bs ih =>
      obtain ⟨cs, hcs⟩ := ih (fun x hx => hp x (List.mem_cons_of_mem _ hx))
      by_cases hc : blk.isCert = true
      · obtain ⟨c, hc'⟩ := Option.isSome_iff_exists.1 (hp blk List.mem_cons_self hc)
        exact ⟨c :: cs, by rw [List.filter_cons_of_pos hc, List.mapM_cons, hc', hcs]; rfl⟩
      · exact ⟨cs, by rw [List.filter_cons_of_neg hc]; exact hcs⟩
  obtain ⟨cs, hcs⟩ := this
  rw [hcs]
  exact if_neg ht

namespace Ex
/-- Toy PEM: `C` is a certificate block, `K` another block, newlines are nothing. -/
def decode : Str → Option (Block × Str)
  | 'C' :: r => some (⟨true, 1⟩, r)
  | 'K' :: r => some (⟨false, 2⟩, r)
  | _ => none
end Ex

example : Spec.Pem Ex.decode [] "CKC".toList [⟨true, 1⟩, ⟨false, 2⟩, ⟨true, 1⟩] ∧
    readCerts Ex.decode some 3 "CKC".toList [] = .ok [1, 1] ∧
    readCerts Ex.decode some 3 "C\n".toList [] = .panic := by
  refine ⟨?_, by decide, by decide⟩
  refine .cons (by decide) rfl (by decide) (.cons (by decide) rfl (by decide)
    (.cons (by decide) rfl (by decide) .nil))

end Verif.Saml
