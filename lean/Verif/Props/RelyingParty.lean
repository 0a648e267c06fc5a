import Verif.Model.RelyingParty
/-!
# C162: clients that do what the discovery document and the standards say get what they were told they would get
-/
namespace Verif.RelyingParty

open Verif.Oidc Verif.Oidc.Server
open Verif.Token (Str)

namespace Spec

/-- OpenID Connect Discovery section 3: what the document means if it names no methods. -/
def supported : List String :=
  match authMethods with
  | none => ["client_secret_basic"]
  | some l => l

/-- The parameters of a token request, RFC 6749 section 4.1.3. -/
def grant (code uri : Str) : List (Str × Str) :=
  [("grant_type".toList, "authorization_code".toList), ("code".toList, code), ("redirect_uri".toList, uri)]

/-- OpenID Connect section 9. -/
inductive Method where
  | basic
  | post

def Method.name : Method → String
  | .basic => "client_secret_basic"
  | .post => "client_secret_post"

/-- Requests of a client that authenticates with one method (RFC 6749 section 2.3.1, OpenID Connect section 9). With the
password in the header, the identifier may be in the body too. -/
inductive Sends (id secret code uri : Str) : Method → Request → Prop where
  | basic : Sends id secret code uri .basic ⟨true, some (id, secret), grant code uri⟩
  | basicId : Sends id secret code uri .basic
      ⟨true, some (id, secret), grant code uri ++ [("client_id".toList, id)]⟩
  | post : Sends id secret code uri .post
      ⟨true, none, grant code uri ++ [("client_id".toList, id), ("client_secret".toList, secret)]⟩

/-- A user is logged in and has been sent to us by this registered client. -/
def Asked (clients : List ClientCfg) (c : ClientCfg) (r : AuthzReq) : Prop :=
  c ∈ clients ∧ r.user ≠ none ∧ r.responseType = "code".toList ∧ r.clientID = c.id ∧ r.uri ∈ c.uris ∧ r.uriParses = true

/-- What others do in the meantime: they do not know the code and the access token, no others are the same, and it is not
later than `t`. -/
def Others (code access t : Nat) : Op → Prop
  | .vacuum t' => t' ≤ t
  | .authorize _ _ code' access' _ => code' ≠ code ∧ access' ≠ access
  | .token _ r => r.code ≠ code
  | .userinfo _ a => a ≠ access

/-- The same for an access token only. -/
def OthersToken (access t : Nat) : Op → Prop
  | .vacuum t' => t' ≤ t
  | .authorize _ _ _ access' _ => access' ≠ access
  | .token _ _ => True
  | .userinfo _ a => a ≠ access

end Spec

theorem get_filter {α : Type} {p : Nat × α → Bool} {k : Nat} {v : α} : ∀ {l : Tbl α}, l.get k = some v → p (k, v) = true →
    Tbl.get (l.filter p) k = some v := by
  intro l
  unfold Tbl.get
  induction l with
  | nil => intro h; simp at h
  | cons x l ih =>
    intro h hp
    obtain ⟨k', v'⟩ := x
    rw [List.lookup_cons] at h
    by_cases hk : k = k'
    · subst hk
      simp at h
      subst h
      rw [List.filter_cons_of_pos hp, List.lookup_cons]
      simp
    · have hb : (k == k') = false := by simpa using hk
      rw [hb] at h
      rw [List.filter_cons]
      split
      · rw [List.lookup_cons, hb]
        exact ih h hp
      · exact ih h hp

theorem get_del {α : Type} {k k' : Nat} {v : α} {l : Tbl α} (h : l.get k = some v) (hk : k' ≠ k) :
    Tbl.get (l.del k') k = some v := get_filter h (by simpa using Ne.symm hk)

theorem get_put {α : Type} {k k' : Nat} {v w : α} {l : Tbl α} (h : l.get k = some v) (hk : k' ≠ k) :
    Tbl.get (l.put k' w) k = some v := by
  unfold Tbl.put
  have := get_del h hk
  unfold Tbl.get at this ⊢
  rw [List.lookup_cons, show (k == k') = false by simpa using Ne.symm hk]
  exact this

theorem get_put_self {α : Type} (k : Nat) (w : α) (l : Tbl α) : Tbl.get (l.put k w) k = some w := by
  unfold Tbl.put Tbl.get
  simp

theorem get_del_self {α : Type} (k : Nat) (l : Tbl α) : Tbl.get (l.del k) k = none := by
  unfold Tbl.del Tbl.get
  rw [List.lookup_eq_none_iff]
  intro x hx
  simpa using fun h : k = x.1 => by
    have := (List.mem_filter.1 hx).2
    simp [h] at this

theorem token_stays (clients : List ClientCfg) (access t : Nat) (a : Access) (o : Op) (s : State)
    (ha : s.access.get access = some a) (ht : t ≤ a.created + 120) (ho : Spec.OthersToken access t o) :
    (step clients s o).access.get access = some a := by
  cases o with
  | vacuum t' =>
    have h' : t' ≤ t := ho
    exact get_filter ha (by simp; omega)
  | authorize t' r code' access' claims' =>
    have h' : access' ≠ access := ho
    unfold step
    dsimp only
    split
    · exact ha
    · split
      · exact ha
      · split
        · exact ha
        · split
          · exact ha
          · exact get_put ha h'
  | token t' r =>
    unfold step
    dsimp only
    split
    · exact ha
    · split
      · exact ha
      · split
        · exact ha
        · split <;> exact ha
  | userinfo t' a' =>
    have h' : a' ≠ access := ho
    unfold step
    dsimp only
    split <;> exact get_del ha h'

theorem tokens_stay (clients : List ClientCfg) (access t : Nat) (a : Access) (ops : List Op) : ∀ s : State,
    s.access.get access = some a → t ≤ a.created + 120 → (∀ o ∈ ops, Spec.OthersToken access t o) →
    (run clients ops s).access.get access = some a := by
  induction ops with
  | nil => intro s h _ _; exact h
  | cons o os ih =>
    intro s h ht ho
    exact ih _ (token_stays clients access t a o s h ht (ho o List.mem_cons_self)) ht
      (fun x hx => ho x (List.mem_cons_of_mem _ hx))

theorem code_stays (clients : List ClientCfg) (code access t : Nat) (d : Code) (o : Op) (s : State)
    (hd : s.codes.get code = some d) (ht : t ≤ d.created + 120) (ho : Spec.Others code access t o) :
    (step clients s o).codes.get code = some d := by
  cases o with
  | vacuum t' =>
    have h' : t' ≤ t := ho
    exact get_filter hd (by simp; omega)
  | authorize t' r code' access' claims' =>
    have h' : code' ≠ code := ho.1
    unfold step
    dsimp only
    split
    · exact hd
    · split
      · exact hd
      · split
        · exact hd
        · split
          · exact hd
          · exact get_put hd h'
  | token t' r =>
    have h' : r.code ≠ code := ho
    unfold step
    dsimp only
    split
    · exact hd
    · split
      · exact hd
      · split
        · exact get_del hd h'
        · split <;> exact get_del hd h'
  | userinfo t' a' =>
    unfold step
    dsimp only
    split <;> exact hd

theorem codes_stay (clients : List ClientCfg) (code access t : Nat) (d : Code) (ops : List Op) : ∀ s : State,
    s.codes.get code = some d → t ≤ d.created + 120 → (∀ o ∈ ops, Spec.Others code access t o) →
    (run clients ops s).codes.get code = some d := by
  induction ops with
  | nil => intro s h _ _; exact h
  | cons o os ih =>
    intro s h ht ho
    exact ih _ (code_stays clients code access t d o s h ht (ho o List.mem_cons_self)) ht
      (fun x hx => ho x (List.mem_cons_of_mem _ hx))

theorem others_token {code access t : Nat} {o : Op} (h : Spec.Others code access t o) : Spec.OthersToken access t o := by
  cases o with
  | vacuum t' => exact h
  | authorize => exact h.2
  | token => trivial
  | userinfo => exact h

/-- After a login, the code and the access token are there. -/
theorem asked_stored (clients : List ClientCfg) (c : ClientCfg) (s : State) (r : AuthzReq) (t code access : Nat)
    (claims : Token.Claims) (h : Spec.Asked clients c r) :
    (step clients s (.authorize t r code access claims)).codes.get code = some ⟨t, c.id, access⟩ ∧
    (step clients s (.authorize t r code access claims)).access.get access = some ⟨t, c.id, claims⟩ := by
  obtain ⟨h1, h2, h3, h4, h5, h6⟩ := h
  unfold step
  dsimp only
  cases hu : r.user with
  | none => exact absurd hu h2
  | some u =>
    have hc : authzClient clients r.clientID r.uri = true := by
      unfold authzClient
      rw [List.any_eq_true]
      exact ⟨c, h1, by simp [h4, h5]⟩
    dsimp only
    rw [if_neg (not_not_intro h3), if_neg (by simp [hc]), if_neg (by simp [h6])]
    rw [← h4]
    exact ⟨get_put_self .., get_put_self ..⟩

theorem token_ok (clients : List ClientCfg) (c : ClientCfg) (hc : c ∈ clients) (s : State) (t : Nat) (q : TokenReq)
    (h1 : q.post = true) (h2 : q.grant = "authorization_code".toList) (h3 : q.clientID = c.id) (h4 : q.secret = c.secret)
    (h5 : q.uri ∈ c.uris) (d : Code) (hd : s.codes.get q.code = some d) (hid : d.clientID = c.id) :
    step clients s (.token t q) = { s with
      codes := s.codes.del q.code, log := .exchanged q.code d.access q.clientID q.secret q.uri t :: s.log } := by
  have ht : tokenClient clients q.clientID q.secret q.uri = true := by
    unfold tokenClient
    rw [List.any_eq_true]
    exact ⟨c, hc, by simp [h3, h4, h5]⟩
  have hg : ¬ (!q.post || decide (q.grant ≠ "authorization_code".toList)) = true := by
    rw [h1, h2]
    generalize "authorization_code".toList = g
    simp
  unfold step
  dsimp only
  rw [if_neg hg, if_neg (by simp [ht]), hd]
  dsimp only
  rw [if_neg (not_not_intro (hid.trans h3.symm))]

/-- What is read of a request with the password in the body. -/
theorem post_read (num : Str → Nat) (id secret code uri : Str) :
    tokenReq num ⟨true, none, Spec.grant code uri ++ [("client_id".toList, id), ("client_secret".toList, secret)]⟩ =
      ⟨true, "authorization_code".toList, num code, id, secret, uri⟩ := by
  rfl

/-- C162 (partial). A client that sends its password in the body gets its tokens within two minutes of the login, whatever
others do in the meantime. Missing: this method is not the one that the discovery document stands for. -/
theorem exchange_partial (clients : List ClientCfg) (c : ClientCfg) (s : State) (r : AuthzReq) (t code access : Nat)
    (claims : Token.Claims) (h : Spec.Asked clients c r) (ops : List Op) (t1 : Nat) (ht : t1 ≤ t + 120)
    (ho : ∀ o ∈ ops, Spec.Others code access t1 o) (num : Str → Nat) (text uri : Str) (hn : num text = code)
    (hu : uri ∈ c.uris) (q : Request) (hq : Spec.Sends c.id c.secret text uri .post q) :
    (serveToken clients num (run clients ops (step clients s (.authorize t r code access claims))) t1 q).2 =
      some ⟨access, 90⟩ := by
  cases hq
  obtain ⟨h1, -⟩ := asked_stored clients c s r t code access claims h
  have h2 := codes_stay clients code access t1 _ ops _ h1 ht ho
  have h3 := code_stays clients code access t1 _ (.vacuum t1) _ h2 ht (Nat.le_refl _)
  unfold serveToken
  dsimp only
  rw [post_read]
  have h4 := token_ok clients c h.1 (vacuum t1 (run clients ops (step clients s (.authorize t r code access claims)))) t1
    ⟨true, "authorization_code".toList, num text, c.id, c.secret, uri⟩ rfl rfl rfl rfl hu _ (by rw [hn]; exact h3) rfl
  rw [h4]
  unfold tokenAnswer
  dsimp only
  exact if_pos rfl

theorem tokenAnswer_same {s s' : State} (h : s'.log = s.log) : tokenAnswer s s' = none := by
  unfold tokenAnswer
  rw [h]
  split
  · rename_i l hl
    rw [hl, if_neg (by simp)]
  · rfl

/-- C162, violated: the discovery document names no methods for the authentication of clients, which means that the
password belongs in the Authorization header; no request that does so is ever answered with tokens. (Clients without a
secret are refused by the check of the configuration, config.go:1066-1068.) -/
theorem basic_violated (clients : List ClientCfg) (hs : ∀ c ∈ clients, c.secret ≠ []) (num : Str → Nat) (s : State) (t : Nat)
    (id secret code uri : Str) (m : Spec.Method) (hm : m.name ∈ Spec.supported) (q : Request)
    (hq : Spec.Sends id secret code uri m q) : (serveToken clients num s t q).2 = none := by
  have hsec : (tokenReq num q).secret = [] := by
    cases hq with
    | basic =>
      rfl
    | basicId =>
      rfl
    | post => simp [Spec.supported, authMethods, Spec.Method.name] at hm
  have ht : tokenClient clients (tokenReq num q).clientID (tokenReq num q).secret (tokenReq num q).uri = false := by
    rw [hsec, ← Bool.not_eq_true]
    unfold tokenClient
    rw [List.any_eq_true]
    rintro ⟨c, hc, h⟩
    simp only [Bool.and_eq_true, decide_eq_true_eq] at h
    exact hs c hc h.1.2
  have hst : step clients (vacuum t s) (.token t (tokenReq num q)) = vacuum t s := by
    unfold step
    dsimp only
    split
    · rfl
    · rw [if_pos (by simp [ht])]
  unfold serveToken
  dsimp only
  rw [hst]
  exact tokenAnswer_same rfl

theorem info_some (clients : List ClientCfg) (s : State) (t a : Nat) (d : Access) (h : (vacuum t s).access.get a = some d) :
    (serveUserInfo clients s t a).2 = some (d.claims.filter fun kv =>
      !(["iss", "aud", "iat", "exp", "nbf", "scope", "sid", "nonce"].contains kv.1)) := by
  unfold serveUserInfo
  dsimp only
  unfold step
  dsimp only
  rw [h]
  dsimp only
  unfold infoAnswer
  dsimp only
  exact if_pos rfl

/-- C162 (partial). The first request with the access token is answered within two minutes of the login, whatever others do
in the meantime. -/
theorem info_partial (clients : List ClientCfg) (c : ClientCfg) (s : State) (r : AuthzReq) (t code access : Nat)
    (claims : Token.Claims) (h : Spec.Asked clients c r) (ops : List Op) (t2 : Nat) (ht : t2 ≤ t + 120)
    (ho : ∀ o ∈ ops, Spec.OthersToken access t2 o) :
    (serveUserInfo clients (run clients ops (step clients s (.authorize t r code access claims))) t2 access).2 =
      some (claims.filter fun kv => !(["iss", "aud", "iat", "exp", "nbf", "scope", "sid", "nonce"].contains kv.1)) := by
  obtain ⟨-, h1⟩ := asked_stored clients c s r t code access claims h
  have h2 := tokens_stay clients access t2 _ ops _ h1 ht ho
  have h3 := token_stays clients access t2 _ (.vacuum t2) _ h2 ht (Nat.le_refl _)
  exact info_some clients _ t2 access _ h3

theorem infoAnswer_same {s s' : State} (h : s'.log = s.log) : infoAnswer s s' = none := by
  unfold infoAnswer
  rw [h]
  split
  · rename_i l hl
    rw [hl, if_neg (by simp)]
  · rfl

theorem info_none (clients : List ClientCfg) (s : State) (t a : Nat) (h : (vacuum t s).access.get a = none) :
    (serveUserInfo clients s t a).2 = none := by
  unfold serveUserInfo
  dsimp only
  unfold step
  dsimp only
  rw [h]
  exact infoAnswer_same rfl

/-- C162, violated: the second request with an access token is refused, however soon it comes. -/
theorem again_violated (clients : List ClientCfg) (s : State) (t t' a : Nat) :
    (serveUserInfo clients (serveUserInfo clients s t a).1 t' a).2 = none := by
  apply info_none
  have h : (serveUserInfo clients s t a).1.access.get a = none := by
    unfold serveUserInfo
    dsimp only
    unfold step
    dsimp only
    split <;> exact get_del_self ..
  unfold Tbl.get at h ⊢
  rw [List.lookup_eq_none_iff] at h ⊢
  intro x hx
  exact h x (List.mem_filter.1 hx).1

/-- Every entry of the table for this access token is this one. -/
def Only (access : Nat) (a : Access) (s : State) : Prop := ∀ x ∈ s.access, x.1 = access → x.2 = a

theorem only_del {access k : Nat} {a : Access} {l : Tbl Access} (h : ∀ x ∈ l, x.1 = access → x.2 = a) :
    ∀ x ∈ l.del k, x.1 = access → x.2 = a :=
  fun x hx => h x (List.mem_filter.1 hx).1

theorem only_step (clients : List ClientCfg) (access : Nat) (a : Access) (o : Op) (s : State) (h : Only access a s)
    (ho : ∃ t, Spec.OthersToken access t o) : Only access a (step clients s o) := by
  obtain ⟨t, ho⟩ := ho
  cases o with
  | vacuum t' => exact fun x hx => h x (List.mem_filter.1 hx).1
  | authorize t' r code' access' claims' =>
    have h' : access' ≠ access := ho
    unfold step
    dsimp only
    split
    · exact h
    · split
      · exact h
      · split
        · exact h
        · split
          · exact h
          · intro x hx e
            rcases List.mem_cons.1 hx with rfl | hx
            · exact absurd e h'
            · exact only_del h x hx e
  | token t' r =>
    unfold step
    dsimp only
    split
    · exact h
    · split
      · exact h
      · split
        · exact h
        · split <;> exact h
  | userinfo t' a' =>
    unfold step
    dsimp only
    split <;> exact only_del h

theorem only_run (clients : List ClientCfg) (access : Nat) (a : Access) (ops : List Op) : ∀ s : State, Only access a s →
    (∀ o ∈ ops, ∃ t, Spec.OthersToken access t o) → Only access a (run clients ops s) := by
  induction ops with
  | nil => intro s h _; exact h
  | cons o os ih =>
    intro s h ho
    exact ih _ (only_step clients access a o s h (ho o List.mem_cons_self)) (fun x hx => ho x (List.mem_cons_of_mem _ hx))

theorem only_asked (clients : List ClientCfg) (c : ClientCfg) (s : State) (r : AuthzReq) (t code access : Nat)
    (claims : Token.Claims) (h : Spec.Asked clients c r) :
    Only access ⟨t, c.id, claims⟩ (step clients s (.authorize t r code access claims)) := by
  obtain ⟨h1, h2, h3, h4, h5, h6⟩ := h
  unfold step
  dsimp only
  cases hu : r.user with
  | none => exact absurd hu h2
  | some u =>
    have hc : authzClient clients r.clientID r.uri = true := by
      unfold authzClient
      rw [List.any_eq_true]
      exact ⟨c, h1, by simp [h4, h5]⟩
    dsimp only
    rw [if_neg (not_not_intro h3), if_neg (by simp [hc]), if_neg (by simp [h6])]
    intro x hx e
    rcases List.mem_cons.1 hx with rfl | hx
    · rw [h4]
    · have := (List.mem_filter.1 hx).2
      simp [e] at this

theorem info_late (clients : List ClientCfg) (s : State) (t2 a : Nat) (d : Access)
    (h1 : Only a d s) (h2 : d.created + 120 < t2) : (serveUserInfo clients s t2 a).2 = none := by
  apply info_none
  unfold Tbl.get
  rw [List.lookup_eq_none_iff]
  intro x hx
  have hx' := List.mem_filter.1 hx
  simp only [Bool.not_eq_true', decide_eq_false_iff_not] at hx'
  have hne : a ≠ x.1 := by
    intro e
    apply hx'.2
    rw [h1 x hx'.1 e.symm]
    exact h2
  simpa using hne

/-- C162, violated: clients are told that the access token expires in 90 seconds. If the code is exchanged later than
31 seconds after the login (time is in whole seconds here), there are times before that when the token is refused, even if nobody has used it. -/
theorem expires_violated (clients : List ClientCfg) (c : ClientCfg) (s : State) (r : AuthzReq) (t code access : Nat)
    (claims : Token.Claims) (h : Spec.Asked clients c r) (ops : List Op) (t1 : Nat) (hl : t + 31 < t1) (ht : t1 ≤ t + 120)
    (ho : ∀ o ∈ ops, Spec.Others code access t1 o) (num : Str → Nat) (text uri : Str) (hn : num text = code)
    (hu : uri ∈ c.uris) (q : Request) (hq : Spec.Sends c.id c.secret text uri .post q) :
    ∃ s' e, serveToken clients num (run clients ops (step clients s (.authorize t r code access claims))) t1 q =
      (s', some ⟨access, e⟩) ∧
    ∃ t2, t1 < t2 ∧ t2 < t1 + e ∧ ∀ ops', (∀ o ∈ ops', Spec.OthersToken access t2 o) →
      (serveUserInfo clients (run clients ops' s') t2 access).2 = none := by
  have he := exchange_partial clients c s r t code access claims h ops t1 ht ho num text uri hn hu q hq
  refine ⟨_, 90, Prod.ext rfl he, t + 121, by omega, by omega, fun ops' ho' => ?_⟩
  have h1 := only_run clients access _ ops _ (only_asked clients c s r t code access claims h)
    (fun o hx => ⟨t1, others_token (ho o hx)⟩)
  have h2 := only_step clients access _ (.vacuum t1) _ h1 ⟨t1, Nat.le_refl _⟩
  have h3 := only_step clients access _ (.token t1 (tokenReq num q)) _ h2 ⟨t1, trivial⟩
  exact info_late clients _ _ _ _ (only_run clients access _ ops' _ h3 (fun o hx => ⟨_, ho' o hx⟩)) (Nat.lt_succ_self _)

/-! ## Examples -/

def exClient : ClientCfg := ⟨"app".toList, "pw".toList, ["https://a/cb".toList]⟩
def exAsk : AuthzReq := ⟨some [], "code".toList, "app".toList, "https://a/cb".toList, true⟩

example : Spec.Asked [exClient] exClient exAsk := by
  refine ⟨by simp, by simp [exAsk], rfl, rfl, ?_, rfl⟩
  simp [exAsk, exClient]

-- others may log in with other codes in the meantime
example : ∀ o ∈ [Op.authorize 3 exAsk 7 8 [], .vacuum 40, .token 40 ⟨true, [], 9, [], [], []⟩, .userinfo 40 8],
    Spec.Others 1 2 50 o := by
  simp [Spec.Others]

example : ∀ c ∈ [exClient], c.secret ≠ [] := by simp [exClient]

example : Spec.Method.basic.name ∈ Spec.supported := by simp [Spec.supported, authMethods, Spec.Method.name]

example : Spec.Sends "app".toList "pw".toList "1".toList "https://a/cb".toList .post
    ⟨true, none, Spec.grant "1".toList "https://a/cb".toList ++
      [("client_id".toList, "app".toList), ("client_secret".toList, "pw".toList)]⟩ := .post

end Verif.RelyingParty
