import Verif.Model.Login

/-!
# C98, C99: a passkey login returns to where it began

C98: a login ends at the page for which it was asked, in the browser that asked; its nonce works once
and for five minutes. The nonce is not tied to the browser (`login_browser_violated`).

C99: it ends on a host that the proxy serves. The `Host` header of the first request is not checked
before the URL is signed (`login_host_violated`).
-/

namespace Verif.Login

/-! ## Invariant -/

/-- The browser has been given the URL, either because it asked for it or with a nonce. -/
def Had (b : Nat) (u : Url) (h : Str) (l : List Event) : Prop :=
  (∃ t, .asked b u h t ∈ l) ∨ ∃ id t, .accepted b id u h t ∈ l

def Cond (l : List Event) : Event → Prop
  | .asked .. => True
  | .requested b id u h _ =>
    Had b u h l ∧ (∀ b' u' h' t', .requested b' id u' h' t' ∉ l) ∧
      ∀ b' u' h' t', .accepted b' id u' h' t' ∉ l
  | .accepted _ id u h t =>
    (∃ b' t0, .requested b' id u h t0 ∈ l ∧ t ≤ t0 + 300) ∧
    ∀ b' u' h' t', .accepted b' id u' h' t' ∉ l
  | .finished b u _ => ∃ h, Had b u h l

def LogOk : List Event → Prop
  | [] => True
  | e :: l => Cond l e ∧ LogOk l

theorem logOk_split {l1 l2 : List Event} {e : Event} (h : LogOk (l1 ++ e :: l2)) : Cond l2 e := by
  induction l1 with
  | nil => exact h.1
  | cons a l ih => exact ih h.2

structure Inv (s : State) : Prop where
  jar : ∀ k sid, (k, sid) ∈ s.jar → (k, sid) ∈ s.sessions
  lt : ∀ k sid, (k, sid) ∈ s.sessions → sid < s.next
  fn : ∀ k k' sid, (k, sid) ∈ s.sessions → (k', sid) ∈ s.sessions → k = k'
  tok : ∀ tok ∈ s.tokens, ∃ b host, ((b, host), tok.sid) ∈ s.sessions ∧
    Had b tok.url (tok.email.getD []) s.log
  nlt : ∀ n ∈ s.nonces, n.id < s.next
  rlt : ∀ b id u h t, .requested b id u h t ∈ s.log → id < s.next
  alt : ∀ b id u h t, .accepted b id u h t ∈ s.log → id < s.next
  non : ∀ n ∈ s.nonces, (∃ b, .requested b n.id n.url n.hint n.created ∈ s.log) ∧
    ∀ b u h t, .accepted b n.id u h t ∉ s.log
  log : LogOk s.log

theorem had_mono {b : Nat} {u : Url} {h : Str} {l l' : List Event} (hs : ∀ e ∈ l, e ∈ l')
    (hh : Had b u h l) : Had b u h l' := by
  rcases hh with ⟨t, ht⟩ | ⟨id, t, ht⟩
  · exact Or.inl ⟨t, hs _ ht⟩
  · exact Or.inr ⟨id, t, hs _ ht⟩

theorem lookup_mem {α β : Type} [BEq α] [LawfulBEq α] {l : List (α × β)} {a : α} {b : β}
    (h : l.lookup a = some b) : (a, b) ∈ l := by
  induction l with
  | nil => simp at h
  | cons x l ih =>
    obtain ⟨a', b'⟩ := x
    rw [List.lookup_cons] at h
    split at h
    · rename_i he
      rw [beq_iff_eq] at he
      cases h
      exact he ▸ List.mem_cons_self
    · exact List.mem_cons_of_mem _ (ih h)

theorem session_inv {s : State} (hi : Inv s) (b : Nat) (host : Str) :
    Inv (session s b host).2 ∧ ((b, host), (session s b host).1) ∈ (session s b host).2.sessions ∧
    (session s b host).2.log = s.log ∧ (session s b host).2.tokens = s.tokens ∧
    (session s b host).2.nonces = s.nonces ∧ s.next ≤ (session s b host).2.next := by
  unfold session
  cases hl : s.jar.lookup (b, host) with
  | some sid => exact ⟨hi, hi.jar _ _ (lookup_mem hl), rfl, rfl, rfl, Nat.le_refl _⟩
  | none =>
    refine ⟨⟨?_, ?_, ?_, ?_, ?_, ?_, ?_, hi.non, hi.log⟩, List.mem_cons_self, rfl, rfl, rfl,
      Nat.le_succ _⟩
    · intro k sid hk
      rcases List.mem_cons.1 hk with hk | hk
      · exact hk ▸ List.mem_cons_self
      · exact List.mem_cons_of_mem _ (hi.jar _ _ hk)
    · intro k sid hk
      rcases List.mem_cons.1 hk with hk | hk
      · cases hk; exact Nat.lt_succ_self _
      · exact Nat.lt_succ_of_lt (hi.lt _ _ hk)
    · intro k k' sid hk hk'
      rcases List.mem_cons.1 hk with hk | hk <;> rcases List.mem_cons.1 hk' with hk' | hk'
      · cases hk; cases hk'; rfl
      · cases hk; exact absurd (hi.lt _ _ hk') (Nat.lt_irrefl _)
      · cases hk'; exact absurd (hi.lt _ _ hk) (Nat.lt_irrefl _)
      · exact hi.fn _ _ _ hk hk'
    · intro tok ht
      obtain ⟨b', h', h1, h2⟩ := hi.tok tok ht
      exact ⟨b', h', List.mem_cons_of_mem _ h1, h2⟩
    · exact fun n hn => Nat.lt_succ_of_lt (hi.nlt n hn)
    · exact fun b id u h t hm => Nat.lt_succ_of_lt (hi.rlt b id u h t hm)
    · exact fun b id u h t hm => Nat.lt_succ_of_lt (hi.alt b id u h t hm)

/-- Adding an event that is no nonce event. -/
theorem log_inv {s : State} (hi : Inv s) (e : Event) (hc : Cond s.log e)
    (h1 : ∀ b id u h t, e ≠ .requested b id u h t) (h2 : ∀ b id u h t, e ≠ .accepted b id u h t) :
    Inv { s with log := e :: s.log } := by
  refine ⟨hi.jar, hi.lt, hi.fn, ?_, hi.nlt, ?_, ?_, ?_, hc, hi.log⟩
  · intro tok ht
    obtain ⟨b', h', k1, k2⟩ := hi.tok tok ht
    exact ⟨b', h', k1, had_mono (fun e he => List.mem_cons_of_mem _ he) k2⟩
  · intro b id u h t hm
    rcases List.mem_cons.1 hm with hm | hm
    · exact absurd hm.symm (h1 _ _ _ _ _)
    · exact hi.rlt b id u h t hm
  · intro b id u h t hm
    rcases List.mem_cons.1 hm with hm | hm
    · exact absurd hm.symm (h2 _ _ _ _ _)
    · exact hi.alt b id u h t hm
  · intro n hn
    obtain ⟨⟨b, k1⟩, k2⟩ := hi.non n hn
    refine ⟨⟨b, List.mem_cons_of_mem _ k1⟩, fun b u h t hm => ?_⟩
    rcases List.mem_cons.1 hm with hm | hm
    · exact absurd hm.symm (h2 _ _ _ _ _)
    · exact k2 b u h t hm

/-- Adding a token for a URL the browser has. -/
theorem token_inv {s : State} (hi : Inv s) (b : Nat) (host : Str) (tok : Tok)
    (h1 : ((b, host), tok.sid) ∈ s.sessions) (h2 : Had b tok.url (tok.email.getD []) s.log) :
    Inv { s with tokens := tok :: s.tokens } := by
  refine ⟨hi.jar, hi.lt, hi.fn, ?_, hi.nlt, hi.rlt, hi.alt, hi.non, hi.log⟩
  intro t ht
  rcases List.mem_cons.1 ht with rfl | ht
  · exact ⟨b, host, h1, h2⟩
  · exact hi.tok t ht

theorem request_inv {s : State} (hi : Inv s) (b : Nat) (u : Url) (hint : Str) (t : Nat)
    (hh : Had b u hint s.log) : Inv (requestLogin s b u hint t) := by
  unfold requestLogin
  refine ⟨hi.jar, fun k sid hk => Nat.lt_succ_of_lt (hi.lt k sid hk), hi.fn, ?_, ?_, ?_, ?_, ?_,
    ⟨hh, ?_, ?_⟩, hi.log⟩
  · intro tok ht
    obtain ⟨b', h', k1, k2⟩ := hi.tok tok ht
    exact ⟨b', h', k1, had_mono (fun e he => List.mem_cons_of_mem _ he) k2⟩
  · intro n hn
    rcases List.mem_cons.1 hn with rfl | hn
    · exact Nat.lt_succ_self _
    · exact Nat.lt_succ_of_lt (hi.nlt n hn)
  · intro b id u h t hm
    rcases List.mem_cons.1 hm with hm | hm
    · cases hm; exact Nat.lt_succ_self _
    · exact Nat.lt_succ_of_lt (hi.rlt b id u h t hm)
  · intro b id u h t hm
    rcases List.mem_cons.1 hm with hm | hm
    · cases hm
    · exact Nat.lt_succ_of_lt (hi.alt b id u h t hm)
  · intro n hn
    rcases List.mem_cons.1 hn with rfl | hn
    · refine ⟨⟨b, List.mem_cons_self⟩, fun b u h t hm => ?_⟩
      rcases List.mem_cons.1 hm with hm | hm
      · cases hm
      · exact absurd (hi.alt _ _ _ _ _ hm) (Nat.lt_irrefl _)
    · obtain ⟨⟨b', k1⟩, k2⟩ := hi.non n hn
      refine ⟨⟨b', List.mem_cons_of_mem _ k1⟩, fun b u h t hm => ?_⟩
      rcases List.mem_cons.1 hm with hm | hm
      · cases hm
      · exact k2 b u h t hm
  · exact fun _ _ _ _ hm => absurd (hi.rlt _ _ _ _ _ hm) (Nat.lt_irrefl _)
  · exact fun _ _ _ _ hm => absurd (hi.alt _ _ _ _ _ hm) (Nat.lt_irrefl _)

theorem validate_inv {s : State} (hi : Inv s) (b : Nat) (host : Str) (tok : Tok) :
    Inv (validateURL s b host tok).2 ∧ (validateURL s b host tok).2.log = s.log ∧
    ∀ u, (validateURL s b host tok).1 = some u →
      u = tok.url ∧ Had b u (tok.email.getD []) s.log := by
  unfold validateURL
  split
  · rename_i hm
    obtain ⟨k1, k2, k3, k4, -⟩ := session_inv hi b host
    refine ⟨k1, k3, fun u hu => ?_⟩
    dsimp only at hu
    split at hu
    · rename_i he
      cases hu
      obtain ⟨b', h', j1, j2⟩ := k1.tok tok (k4 ▸ hm)
      rw [he] at k2
      cases k1.fn _ _ _ k2 j1
      exact ⟨rfl, k3 ▸ j2⟩
    · cases hu
  · exact ⟨hi, rfl, fun u hu => by cases hu⟩

theorem inv_step {s : State} (hi : Inv s) (o : Op) : Inv (step s o) := by
  cases o with
  | ask b host rest hint t =>
    obtain ⟨k1, k2, k3, -⟩ := session_inv hi b host
    have := log_inv k1 (.asked b ⟨host, rest⟩ (hint.getD []) t) trivial (by simp) (by simp)
    exact token_inv this b host ⟨⟨host, rest⟩, hint, _⟩ k2 (Or.inl ⟨t, List.mem_cons_self⟩)
  | login b host tok t =>
    obtain ⟨k1, k2, k3⟩ := validate_inv hi b host tok
    show Inv (match validateURL s b host tok with
      | (none, s) => s
      | (some u, s) => requestLogin s b u (tok.email.getD []) t)
    revert k1 k2 k3
    generalize validateURL s b host tok = r
    obtain ⟨o, s'⟩ := r
    intro k1 k2 k3
    cases o with
    | none => exact k1
    | some u => exact request_inv k1 b u _ t (k2.symm ▸ (k3 u rfl).2)
  | manage b host rest hint t =>
    have := log_inv hi (.asked b ⟨host, rest⟩ (hint.getD []) t) trivial (by simp) (by simp)
    exact request_inv this b ⟨host, rest⟩ _ t (Or.inl ⟨t, List.mem_cons_self⟩)
  | callback b host id t =>
    unfold step
    dsimp only
    have hi' : Inv { s with nonces := ((s.nonces.filter fun n => !decide (n.created + 300 < t)).filter
                    fun n => decide (n.id ≠ id)) } :=
      ⟨hi.jar, hi.lt, hi.fn, hi.tok,
        fun n hn => hi.nlt n (List.mem_filter.1 (List.mem_filter.1 hn).1).1, hi.rlt, hi.alt,
        fun n hn => hi.non n (List.mem_filter.1 (List.mem_filter.1 hn).1).1, hi.log⟩
    cases hf : (s.nonces.filter fun n => !decide (n.created + 300 < t)).find? fun n => decide (n.id = id) with
    | none => exact hi'
    | some n =>
      have hm := List.mem_of_find?_eq_some hf
      have hid : n.id = id := by simpa using List.find?_some hf
      obtain ⟨hn, hold⟩ := List.mem_filter.1 hm
      have hage : t ≤ n.created + 300 := by
        have : ¬ n.created + 300 < t := by simpa using hold
        omega
      obtain ⟨k1, k2, k3, -, k5, k6⟩ := session_inv hi' b host
      obtain ⟨⟨b0, hreq⟩, hacc⟩ := hi.non n hn
      have hlt : id < s.next := hid ▸ hi.nlt n hn
      have hcond : Cond s.log (.accepted b id n.url n.hint t) :=
        ⟨⟨b0, n.created, hid ▸ hreq, hage⟩, hid ▸ hacc⟩
      have key : Inv { (session { s with nonces := (s.nonces.filter fun n =>
          !decide (n.created + 300 < t)).filter (fun n => decide (n.id ≠ id)) } b host).2 with
          log := .accepted b id n.url n.hint t :: s.log } := by
        refine ⟨k1.jar, k1.lt, k1.fn, ?_, k1.nlt, ?_, ?_, ?_, hcond, hi.log⟩
        · intro tok ht
          obtain ⟨b', h', j1, j2⟩ := k1.tok tok ht
          rw [k3] at j2
          exact ⟨b', h', j1, had_mono (fun e he => List.mem_cons_of_mem _ he) j2⟩
        · intro b id u h t hm
          rcases List.mem_cons.1 hm with hm | hm
          · cases hm
          · exact k1.rlt b id u h t (k3.symm ▸ hm)
        · intro b' id' u h t hm
          rcases List.mem_cons.1 hm with hm | hm
          · cases hm
            exact Nat.lt_of_lt_of_le hlt k6
          · exact k1.alt b' id' u h t (k3.symm ▸ hm)
        · intro n' hn'
          obtain ⟨⟨b', j1⟩, j2⟩ := k1.non n' hn'
          rw [k3] at j1 j2
          refine ⟨⟨b', List.mem_cons_of_mem _ j1⟩, fun b u h t hm => ?_⟩
          rcases List.mem_cons.1 hm with hm | hm
          · have : n'.id ≠ id := by
              rw [k5] at hn'
              simpa using (List.mem_filter.1 hn').2
            cases hm
            exact this rfl
          · exact j2 b u h t hm
      have := token_inv key b host ⟨n.url, some n.hint, _⟩ k2
        (Or.inr ⟨id, t, List.mem_cons_self⟩)
      dsimp only [urlToken]
      rw [k3]
      exact this
  | finish b host tok t =>
    obtain ⟨k1, k2, k3⟩ := validate_inv hi b host tok
    show Inv (match validateURL s b host tok with
      | (none, s) => s
      | (some u, s) => { s with log := .finished b u t :: s.log })
    revert k1 k2 k3
    generalize validateURL s b host tok = r
    obtain ⟨o, s'⟩ := r
    intro k1 k2 k3
    cases o with
    | none => exact k1
    | some u => exact log_inv k1 _ ⟨_, k2.symm ▸ (k3 u rfl).2⟩ (by simp) (by simp)
  | forget b host =>
    exact ⟨fun k sid hk => hi.jar k sid (List.mem_filter.1 hk).1, hi.lt, hi.fn, hi.tok, hi.nlt,
      hi.rlt, hi.alt, hi.non, hi.log⟩

theorem inv_init : Inv init :=
  ⟨by simp [init], by simp [init], by simp [init], by simp [init], by simp [init], by simp [init],
    by simp [init], by simp [init], trivial⟩

theorem inv_run {s : State} (hi : Inv s) (ops : List Op) : Inv (run ops s) := by
  induction ops generalizing s with
  | nil => exact hi
  | cons o os ih => exact ih (inv_step hi o)

/-! ## C98 -/

/-- What a browser asked for. -/
def Spec.Asked (l : List Event) (b : Nat) (u : Url) (hint : Str) : Prop := ∃ t, .asked b u hint t ∈ l

theorem had_asked {l : List Event} (hl : LogOk l) {b : Nat} {u : Url} {h : Str}
    (hh : Had b u h l) : ∃ b', Spec.Asked l b' u h := by
  induction l generalizing b with
  | nil => rcases hh with ⟨t, ht⟩ | ⟨id, t, ht⟩ <;> simp at ht
  | cons e l ih =>
    have lift : (∃ b', Spec.Asked l b' u h) → ∃ b', Spec.Asked (e :: l) b' u h :=
      fun ⟨b', t, ht⟩ => ⟨b', t, List.mem_cons_of_mem _ ht⟩
    rcases hh with ⟨t, ht⟩ | ⟨id, t, ht⟩
    · exact ⟨b, t, ht⟩
    · rcases List.mem_cons.1 ht with rfl | ht
      · obtain ⟨⟨b', t0, hr, -⟩, -⟩ := hl.1
        obtain ⟨l1, l2, rfl⟩ := List.append_of_mem hr
        have := (logOk_split hl.2).1
        exact lift (ih hl.2 (had_mono (fun e he => by simp [he]) this))
      · exact lift (ih hl.2 (Or.inr ⟨id, t, ht⟩))

theorem logOk_suffix {l1 l2 : List Event} (h : LogOk (l1 ++ l2)) : LogOk l2 := by
  induction l1 with
  | nil => exact h
  | cons a l ih => exact ih h.2

/-- C98 (without "in the browser that asked"): a login ends only at a page that was asked for before,
exactly as it was asked for. -/
theorem login_return_partial (ops : List Op) (l1 l2 : List Event) (b : Nat) (u : Url) (t : Nat)
    (h : (run ops init).log = l1 ++ .finished b u t :: l2) :
    ∃ b' hint t0, .asked b' u hint t0 ∈ l2 := by
  have hl := (inv_run inv_init ops).log
  rw [h] at hl
  obtain ⟨hint, hh⟩ := logOk_split hl
  obtain ⟨b', t0, ha⟩ := had_asked (logOk_suffix hl).2 hh
  exact ⟨b', hint, t0, ha⟩

/-- C98: a nonce is accepted at most once, at most five minutes after it was made, for the page and the
user for which it was made, and it was made for a page that had been asked for. -/
theorem login_nonce (ops : List Op) (l1 l2 : List Event) (b id : Nat) (u : Url) (hint : Str)
    (t : Nat) (h : (run ops init).log = l1 ++ .accepted b id u hint t :: l2) :
    (∃ b' t0, .requested b' id u hint t0 ∈ l2 ∧ t ≤ t0 + 300 ∧
      ∃ b'' t1, .asked b'' u hint t1 ∈ l2) ∧
    (∀ b' u' h' t', .accepted b' id u' h' t' ∉ l1 ++ l2) ∧
    ∀ b1 u1 h1 s1 b2 u2 h2 s2, .requested b1 id u1 h1 s1 ∈ (run ops init).log →
      .requested b2 id u2 h2 s2 ∈ (run ops init).log → (b1, u1, h1, s1) = (b2, u2, h2, s2) := by
  have hl := (inv_run inv_init ops).log
  refine ⟨?_, ?_, ?_⟩
  · rw [h] at hl
    obtain ⟨⟨b', t0, hr, ht⟩, -⟩ := logOk_split hl
    obtain ⟨m1, m2, rfl⟩ := List.append_of_mem hr
    have h2 := (logOk_suffix hl).2
    obtain ⟨b'', t1, ha⟩ := had_asked (logOk_suffix h2).2 (logOk_split h2).1
    exact ⟨b', t0, hr, ht, b'', t1, by simp [ha]⟩
  · intro b' u' h' t' hm
    rw [h] at hl
    rcases List.mem_append.1 hm with hm | hm
    · obtain ⟨m1, m2, rfl⟩ := List.append_of_mem hm
      rw [List.append_assoc, List.cons_append] at hl
      exact (logOk_split hl).2 b u hint t (by simp)
    · exact (logOk_split hl).2 _ _ _ _ hm
  · intro b1 u1 h1 s1 b2 u2 h2 s2 hm1 hm2
    obtain ⟨m1, m2, he⟩ := List.append_of_mem hm1
    rw [he] at hl hm2
    rcases List.mem_append.1 hm2 with hm | hm
    · obtain ⟨k1, k2, rfl⟩ := List.append_of_mem hm
      rw [List.append_assoc, List.cons_append] at hl
      exact absurd (by simp) ((logOk_split hl).2.1 b1 u1 h1 s1)
    · rcases List.mem_cons.1 hm with hm | hm
      · cases hm; rfl
      · exact absurd hm ((logOk_split hl).2.1 _ _ _ _)

theorem had_own {l : List Event} (hl : LogOk l)
    (hown : ∀ b b' id u h t u' h' t', .accepted b id u h t ∈ l → .requested b' id u' h' t' ∈ l →
      b = b') {b : Nat} {u : Url} {h : Str} (hh : Had b u h l) : Spec.Asked l b u h := by
  induction l generalizing b with
  | nil => rcases hh with ⟨t, ht⟩ | ⟨id, t, ht⟩ <;> simp at ht
  | cons e l ih =>
    have hown' : ∀ b b' id u h t u' h' t', .accepted b id u h t ∈ l →
        .requested b' id u' h' t' ∈ l → b = b' := fun b b' id u h t u' h' t' h1 h2 =>
      hown b b' id u h t u' h' t' (List.mem_cons_of_mem _ h1) (List.mem_cons_of_mem _ h2)
    have lift : Spec.Asked l b u h → Spec.Asked (e :: l) b u h :=
      fun ⟨t, ht⟩ => ⟨t, List.mem_cons_of_mem _ ht⟩
    rcases hh with ⟨t, ht⟩ | ⟨id, t, ht⟩
    · exact ⟨t, ht⟩
    · rcases List.mem_cons.1 ht with rfl | ht
      · obtain ⟨⟨b', t0, hr, -⟩, -⟩ := hl.1
        have := hown b b' id u h t u h t0 List.mem_cons_self (List.mem_cons_of_mem _ hr)
        subst this
        obtain ⟨l1, l2, rfl⟩ := List.append_of_mem hr
        have := (logOk_split hl.2).1
        exact lift (ih hl.2 hown' (had_mono (fun e he => by simp [he]) this))
      · exact lift (ih hl.2 hown' (Or.inr ⟨id, t, ht⟩))

/-- C98, if no browser follows a link to the login page that was made for another one: the login ends in
the browser that asked for it. -/
theorem login_browser_partial (ops : List Op) (l1 l2 : List Event) (b : Nat) (u : Url) (t : Nat)
    (h : (run ops init).log = l1 ++ .finished b u t :: l2)
    (hown : ∀ b b' id u h t u' h' t', .accepted b id u h t ∈ l2 → .requested b' id u' h' t' ∈ l2 →
      b = b') : ∃ hint t0, .asked b u hint t0 ∈ l2 := by
  have hl := (inv_run inv_init ops).log
  rw [h] at hl
  obtain ⟨hint, hh⟩ := logOk_split hl
  obtain ⟨t0, ha⟩ := had_own (logOk_suffix hl).2 hown hh
  exact ⟨hint, t0, ha⟩

theorem session_sid {s : State} (b : Nat) (host : Str) :
    (session s b host).2.jar.lookup (b, host) = some (session s b host).1 := by
  unfold session
  cases hl : s.jar.lookup (b, host) with
  | some sid => exact hl
  | none => simp

theorem session_again {s : State} {b : Nat} {host : Str} {sid : Nat}
    (h : s.jar.lookup (b, host) = some sid) : session s b host = (sid, s) := by
  unfold session
  rw [h]

/-- Looking up another session keeps this one. -/
theorem session_keeps {s : State} {b b' : Nat} {host host' : Str} {sid : Nat}
    (h : s.jar.lookup (b, host) = some sid) :
    (session s b' host').2.jar.lookup (b, host) = some sid := by
  unfold session
  cases hl : s.jar.lookup (b', host') with
  | some _ => exact h
  | none =>
    dsimp only
    rw [List.lookup_cons]
    split
    · rename_i he
      rw [beq_iff_eq] at he
      rw [he, hl] at h
      cases h
    · exact h

theorem validate_ok {s : State} {b : Nat} {host : Str} {tok : Tok} (h1 : tok ∈ s.tokens)
    (h2 : s.jar.lookup (b, host) = some tok.sid) :
    validateURL s b host tok = (some tok.url, s) := by
  unfold validateURL
  rw [if_pos h1, session_again h2]
  simp

/-- C98: and it does get there. Whatever happened before, a browser that asks for a page, goes to the
login page on `ep` within five minutes and uses its passkey is told to go to that page. -/
theorem login_completes (ops : List Op) (b : Nat) (host rest ep : Str) (hint : Option Str)
    (t1 t2 t3 t4 : Nat) (ht : t3 ≤ t2 + 300) :
    ∃ tok id tok', (run [.ask b host rest hint t1, .login b host tok t2, .callback b ep id t3,
      .finish b ep tok' t4] (run ops init)).log =
        .finished b ⟨host, rest⟩ t4 :: .accepted b id ⟨host, rest⟩ (hint.getD []) t3 ::
        .requested b id ⟨host, rest⟩ (hint.getD []) t2 ::
        .asked b ⟨host, rest⟩ (hint.getD []) t1 :: (run ops init).log := by
  have hi := inv_run inv_init ops
  generalize run ops init = s at hi
  have i1 := inv_step hi (.ask b host rest hint t1)
  obtain ⟨k1, k2, k3, -⟩ := session_inv hi b host
  have hsid := session_sid (s := s) b host
  refine ⟨⟨⟨host, rest⟩, hint, (session s b host).1⟩, (session s b host).2.next, ?_⟩
  have hlogin : step (step s (.ask b host rest hint t1))
      (.login b host ⟨⟨host, rest⟩, hint, (session s b host).1⟩ t2) =
      requestLogin (step s (.ask b host rest hint t1)) b ⟨host, rest⟩ (hint.getD []) t2 := by
    have hv : validateURL (step s (.ask b host rest hint t1)) b host
        ⟨⟨host, rest⟩, hint, (session s b host).1⟩ =
        (some ⟨host, rest⟩, step s (.ask b host rest hint t1)) :=
      validate_ok (by simp [step, urlToken]) (by simpa [step, urlToken] using hsid)
    show (match validateURL (step s (.ask b host rest hint t1)) b host
        ⟨⟨host, rest⟩, hint, (session s b host).1⟩ with
      | (none, s) => s
      | (some u, s) => requestLogin s b u (hint.getD []) t2) = _
    rw [hv]
  have hlog1 : (step s (.ask b host rest hint t1)).log =
      .asked b ⟨host, rest⟩ (hint.getD []) t1 :: s.log := by
    simp [step, urlToken, k3]
  have hnext1 : (step s (.ask b host rest hint t1)).next = (session s b host).2.next := rfl
  simp only [run, hlogin]
  revert i1 hlog1 hnext1
  generalize step s (.ask b host rest hint t1) = s1
  intro i1 hlog1 hnext1
  rw [← hnext1]
  have hf : ((requestLogin s1 b ⟨host, rest⟩ (hint.getD []) t2).nonces.filter fun n =>
      !decide (n.created + 300 < t3)).find? (fun n => decide (n.id = s1.next)) =
      some ⟨s1.next, t2, ⟨host, rest⟩, hint.getD []⟩ := by
    simp only [requestLogin]
    rw [List.filter_cons_of_pos (by simp; omega)]
    simp
  unfold step
  dsimp only
  rw [hf]
  dsimp only [urlToken]
  refine ⟨⟨⟨host, rest⟩, some (hint.getD []), (session { requestLogin s1 b ⟨host, rest⟩
    (hint.getD []) t2 with
      nonces := ((requestLogin s1 b ⟨host, rest⟩ (hint.getD []) t2).nonces.filter
        fun n => !decide (n.created + 300 < t3)).filter fun n => decide (n.id ≠ s1.next) } b ep).1⟩,
    ?_⟩
  rw [validate_ok (by simp) (by simpa using session_sid b ep)]
  dsimp only
  congr 2
  have : ∀ s : State, (session s b ep).2.log = s.log := by
    intro s
    unfold session
    split <;> rfl
  rw [this]
  simp [requestLogin, hlog1]

/-! ## C99 -/

/-- The hosts of requests that ask for a login. -/
def Spec.hosts : List Op → List Str
  | [] => []
  | .ask _ host _ _ _ :: ops => host :: Spec.hosts ops
  | .manage _ host _ _ _ :: ops => host :: Spec.hosts ops
  | _ :: ops => Spec.hosts ops

/-- C98 (the end of a session). When the session cookie of a browser for a host is gone, no token made earlier is
accepted from it there; the cookies of other browsers and for other hosts stay. -/
theorem forget_ends (ops : List Op) (b : Nat) (host : Str) (tok : Tok) :
    (validateURL (step (run ops init) (.forget b host)) b host tok).1 = none ∧
    ∀ b' host', (b', host') ≠ (b, host) →
      (step (run ops init) (.forget b host)).jar.lookup (b', host') = (run ops init).jar.lookup (b', host') := by
  have hi := inv_run inv_init ops
  generalize run ops init = s at hi
  have hlook : ∀ (l : List ((Nat × Str) × Nat)) (k k' : Nat × Str), k' ≠ k →
      (l.filter fun e => e.1 ≠ k).lookup k' = l.lookup k' := by
    intro l k k' hne
    induction l with
    | nil => rfl
    | cons a l ih =>
      obtain ⟨a, v⟩ := a
      by_cases e : a = k
      · rw [List.filter_cons_of_neg (by simp [e]), ih, List.lookup_cons]
        have : (k' == a) = false := by simp [e, hne]
        rw [this]
      · rw [List.filter_cons_of_pos (by simp [e]), List.lookup_cons, List.lookup_cons, ih]
  constructor
  · unfold validateURL
    split
    · rename_i ht
      have ht : tok ∈ s.tokens := ht
      have hl : (step s (.forget b host)).jar.lookup (b, host) = none := by
        rw [List.lookup_eq_none_iff]
        intro p hp
        have := of_decide_eq_true (List.mem_filter.1 hp).2
        exact bne_iff_ne.2 (fun e => this e.symm)
      unfold session
      rw [hl]
      dsimp only
      obtain ⟨b', h', h1, -⟩ := hi.tok tok ht
      have := hi.lt _ _ h1
      have hn : (step s (.forget b host)).next = s.next := rfl
      rw [if_neg (by rw [hn]; omega)]
    · rfl
  · intro b' host' hne
    exact hlook s.jar (b, host) (b', host') hne

example : let s := run [.ask 1 ['a'] ['/'] none 5] init
    ∃ tok ∈ s.tokens, (validateURL s 1 ['a'] tok).1 = some ⟨['a'], ['/']⟩ ∧
      (validateURL (step s (.forget 1 ['a'])) 1 ['a'] tok).1 = none := by decide

theorem session_log (s : State) (b : Nat) (host : Str) : (session s b host).2.log = s.log := by
  unfold session
  split <;> rfl

theorem validate_log (s : State) (b : Nat) (host : Str) (tok : Tok) :
    (validateURL s b host tok).2.log = s.log := by
  unfold validateURL
  split
  · exact session_log s b host
  · rfl

theorem asked_host (ops : List Op) (s : State) (b : Nat) (u : Url) (hint : Str) (t : Nat)
    (h : .asked b u hint t ∈ (run ops s).log) : .asked b u hint t ∈ s.log ∨ u.host ∈ Spec.hosts ops := by
  induction ops generalizing s with
  | nil => exact Or.inl h
  | cons o os ih =>
    have h' := ih _ h
    cases o with
    | ask b' host rest hint' t' =>
      rcases h' with h' | h'
      · simp only [step, urlToken, session_log, List.mem_cons] at h'
        rcases h' with h' | h'
        · cases h'; exact Or.inr List.mem_cons_self
        · exact Or.inl h'
      · exact Or.inr (List.mem_cons_of_mem _ h')
    | manage b' host rest hint' t' =>
      rcases h' with h' | h'
      · simp only [step, requestLogin, List.mem_cons] at h'
        rcases h' with h' | h' | h'
        · cases h'
        · cases h'; exact Or.inr List.mem_cons_self
        · exact Or.inl h'
      · exact Or.inr (List.mem_cons_of_mem _ h')
    | login b' host tok t' =>
      refine h'.imp (fun h' => ?_) id
      simp only [step] at h'
      have hv := validate_log s b' host tok
      revert h' hv
      generalize validateURL s b' host tok = r
      obtain ⟨o, s'⟩ := r
      intro h' hv
      cases o with
      | none => exact hv ▸ h'
      | some u =>
        simp only [requestLogin, List.mem_cons] at h'
        rcases h' with h' | h'
        · cases h'
        · exact hv ▸ h'
    | finish b' host tok t' =>
      refine h'.imp (fun h' => ?_) id
      simp only [step] at h'
      have hv := validate_log s b' host tok
      revert h' hv
      generalize validateURL s b' host tok = r
      obtain ⟨o, s'⟩ := r
      intro h' hv
      cases o with
      | none => exact hv ▸ h'
      | some u =>
        simp only [List.mem_cons] at h'
        rcases h' with h' | h'
        · cases h'
        · exact hv ▸ h'
    | callback b' host id t' =>
      refine h'.imp (fun h' => ?_) (fun h => h)
      simp only [step] at h'
      split at h'
      · exact h'
      · simp only [urlToken, session_log, List.mem_cons] at h'
        rcases h' with h' | h'
        · cases h'
        · exact h'
    | forget b' host => exact h'

/-- C99, if requests name hosts that the proxy serves: so do the pages to which logins lead. -/
theorem login_host_partial (served : List Str) (ops : List Op)
    (hs : ∀ host ∈ Spec.hosts ops, host ∈ served) (b : Nat) (u : Url) (t : Nat)
    (h : .finished b u t ∈ (run ops init).log) : u.host ∈ served := by
  obtain ⟨l1, l2, he⟩ := List.append_of_mem h
  obtain ⟨b', hint, t0, ha⟩ := login_return_partial ops l1 l2 b u t he
  rcases asked_host ops init b' u hint t0 (he ▸ by simp [ha]) with h' | h'
  · simp [init] at h'
  · exact hs _ h'

namespace Ex

def www : Str := "www".toList
def ep : Str := "login".toList
def evil : Str := "evil".toList

/-- Browser 0 asks for a page on `host`, and browser `b` follows the link to the login page. -/
def ops (host : Str) (b : Nat) : List Op :=
  [.ask 0 host ['/'] none 0, .login 0 host ⟨⟨host, ['/']⟩, none, 0⟩ 5, .callback b ep 1 100,
   .finish b ep ⟨⟨host, ['/']⟩, some [], 2⟩ 110]

end Ex

/-- Non-vacuity: a login. -/
example : (run (Ex.ops Ex.www 0) init).log =
    [.finished 0 ⟨Ex.www, ['/']⟩ 110, .accepted 0 1 ⟨Ex.www, ['/']⟩ [] 100,
     .requested 0 1 ⟨Ex.www, ['/']⟩ [] 5, .asked 0 ⟨Ex.www, ['/']⟩ [] 0] := by decide +kernel

example : ∃ hint t0, .asked 0 ⟨Ex.www, ['/']⟩ hint t0 ∈ (run (Ex.ops Ex.www 0) init).log := by
  have e : (run (Ex.ops Ex.www 0) init).log = [.finished 0 ⟨Ex.www, ['/']⟩ 110,
    .accepted 0 1 ⟨Ex.www, ['/']⟩ [] 100, .requested 0 1 ⟨Ex.www, ['/']⟩ [] 5,
    .asked 0 ⟨Ex.www, ['/']⟩ [] 0] := by decide +kernel
  obtain ⟨h, t, hm⟩ := login_browser_partial (Ex.ops Ex.www 0) []
    [.accepted 0 1 ⟨Ex.www, ['/']⟩ [] 100, .requested 0 1 ⟨Ex.www, ['/']⟩ [] 5,
     .asked 0 ⟨Ex.www, ['/']⟩ [] 0] 0 ⟨Ex.www, ['/']⟩ 110 (by decide +kernel) (by simp_all)
  exact ⟨h, t, e ▸ List.mem_cons_of_mem _ hm⟩

/-- A nonce is of no use the second time, or after five minutes. -/
example : (run [.callback 0 Ex.ep 1 101] (run (Ex.ops Ex.www 0) init)).log =
    (run (Ex.ops Ex.www 0) init).log ∧
    (run [.callback 0 Ex.ep 1 306] (run ((Ex.ops Ex.www 0).take 2) init)).log =
    (run ((Ex.ops Ex.www 0).take 2) init).log := by decide +kernel

/-- C98 does not hold: a link to the login page made for browser 0 sends browser 1, which never asked for
anything, to the page that browser 0 chose. -/
theorem login_browser_violated : ∃ ops l1 l2 b u t, (run ops init).log = l1 ++ .finished b u t :: l2 ∧
    ∀ u' hint t0, .asked b u' hint t0 ∉ l2 := by
  refine ⟨Ex.ops Ex.www 1, [], [.accepted 1 1 ⟨Ex.www, ['/']⟩ [] 100,
    .requested 0 1 ⟨Ex.www, ['/']⟩ [] 5, .asked 0 ⟨Ex.www, ['/']⟩ [] 0], 1, ⟨Ex.www, ['/']⟩, 110,
    by decide +kernel, ?_⟩
  simp

/-- C99 does not hold: the `Host` header of the first request can name any host, and together with the
previous theorem a user can be sent there after the login. -/
theorem login_host_violated : ∃ ops b t, .finished b ⟨Ex.evil, ['/']⟩ t ∈ (run ops init).log ∧
    ∀ b' u' hint t0, .asked b' u' hint t0 ∈ (run ops init).log → b' ≠ b := by
  refine ⟨Ex.ops Ex.evil 1, 1, 110, by decide +kernel, ?_⟩
  rw [show (run (Ex.ops Ex.evil 1) init).log = [.finished 1 ⟨Ex.evil, ['/']⟩ 110,
    .accepted 1 1 ⟨Ex.evil, ['/']⟩ [] 100, .requested 0 1 ⟨Ex.evil, ['/']⟩ [] 5,
    .asked 0 ⟨Ex.evil, ['/']⟩ [] 0] from by decide +kernel]
  intro b' u' hint t0 h
  simp only [List.mem_cons, reduceCtorEq, List.not_mem_nil, or_false, false_or,
    Event.asked.injEq] at h
  omega

end Verif.Login
