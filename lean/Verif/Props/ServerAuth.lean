import Verif.Model.ServerAuth
import Verif.Props.Pool
/-
C116: data of clients is sent to a backend server only after it has proved to be the configured one.
-/
namespace Verif.ServerAuth

/-! ## Specification -/

/-- An entry of a list of CAs: the name of a PKI, the name of a file, or the certificates themselves. -/
inductive Spec.Names (w : World) : String → Cert → Prop
  | pki {n m c} : w.pkis n = some m → w.ca m = some c → Spec.Names w n c
  | file {n text c} : w.pkis n = none → (∃ rest, n.toList = '/' :: rest) → w.file n = some text → c ∈ w.pem text →
      Spec.Names w n c
  | text {n c} : w.pkis n = none → (¬ ∃ rest, n.toList = '/' :: rest) → c ∈ w.pem n → Spec.Names w n c

/-- The CAs a list stands for; an empty list stands for those of the system. -/
def Spec.Trusted (w : World) (names : List String) (c : Cert) : Prop :=
  (names = [] ∧ c ∈ w.system) ∨ ∃ n ∈ names, Spec.Names w n c

/-- The settings for a path override or, if there is none of that number, for the backend. -/
def Spec.Settings (be : Backend) (slot : Option Nat) (t : Target) : Prop :=
  (∃ i, slot = some i ∧ be.overrides[i]? = some t) ∨
    ((∀ i, slot = some i → be.overrides.length ≤ i) ∧ t = be.main)

/-- The name a server has to prove to own: the configured one, or over QUIC its IP address. -/
def Spec.nameFor (w : World) (t : Target) (quic : Bool) (addr : String) : String :=
  if t.serverName ≠ "" then t.serverName else if quic then w.ip addr else ""

/-- The PKI `m` is mentioned somewhere in the backend's configuration. -/
def Spec.Mentioned (w : World) (be : Backend) (m : Nat) : Prop :=
  ∃ n, w.pkis n = some m ∧ (n ∈ be.clientRoots ∨ n ∈ be.main.rootCAs ∨ ∃ o ∈ be.overrides, n ∈ o.rootCAs)

/-- Not known to be revoked: by the PKI with the key that signed it, if mentioned, else by OCSP. -/
def Spec.Current (w : World) (be : Backend) (t : Moment) (cert : Cert) (chains : List (List Cert)) : Prop :=
  (∀ m ca, Spec.Mentioned w be m → w.ca m = some ca → cert.aki = ca.ski → t.revoked m cert.serial = false) ∧
  ((∀ m ca, Spec.Mentioned w be m → w.ca m = some ca → cert.aki ≠ ca.ski) → cert.ocsp = true → t.ocspBad chains = false)

/-- What is assumed of `x509.Certificate.Verify`: chains begin with the first certificate presented, which is
valid for the name, end in one of the roots, and each certificate is signed by the next. It depends on the
set of roots only. -/
structure Spec.X509 (w : World) (validFor : String → Cert → Prop) (signed : Cert → Cert → Prop) : Prop where
  leaf : ∀ rs n cs ch, ch ∈ w.verify rs n cs → ∃ c rest, ch = c :: rest ∧ cs.head? = some c ∧ validFor n c
  root : ∀ rs n cs ch, ch ∈ w.verify rs n cs → ∃ r ∈ rs, ch.getLast? = some r
  links : ∀ rs n cs ch, ch ∈ w.verify rs n cs → ∀ pre a b post, ch = pre ++ a :: b :: post → signed b a
  set : ∀ rs rs' n cs, (∀ c, c ∈ rs ↔ c ∈ rs') → w.verify rs n cs = w.verify rs' n cs

/-- Different PKIs have different keys. -/
def Spec.Distinct (w : World) : Prop :=
  ∀ m m' ca ca', w.ca m = some ca → w.ca m' = some ca' → ca.ski = ca'.ski → m = m'

/-! ## Proof -/

theorem readEntry_spec (w : World) (s b : String) :
    readEntry w s = some b ↔ ((∃ rest, s.toList = '/' :: rest) ∧ w.file s = some b) ∨
      ((¬ ∃ rest, s.toList = '/' :: rest) ∧ s = b) := by
  unfold readEntry
  cases h : s.toList with
  | nil => simp
  | cons c cs =>
    by_cases hc : c = '/'
    · subst hc; simp
    · simp [hc]

theorem names_pem {w : World} {n b : String} (hp : w.pkis n = none) (hb : readEntry w n = some b) (c : Cert) :
    Spec.Names w n c ↔ c ∈ w.pem b := by
  constructor
  · intro h
    cases h with
    | pki h1 _ => rw [hp] at h1; cases h1
    | file _ h2 h3 h4 =>
      rcases (readEntry_spec w n b).mp hb with ⟨_, h⟩ | ⟨h, _⟩
      · rw [h] at h3; cases h3; exact h4
      · exact absurd h2 h
    | text _ h2 h3 =>
      rcases (readEntry_spec w n b).mp hb with ⟨h, _⟩ | ⟨_, h⟩
      · exact absurd h h2
      · rw [← h]; exact h3
  · intro h
    rcases (readEntry_spec w n b).mp hb with ⟨h1, h2⟩ | ⟨h1, h2⟩
    · exact .file hp h1 h2 h
    · subst h2; exact .text hp h1 h

theorem addRoot_spec {w : World} {st st' : Pool × PkiMap} {n : String} (h : addRoot w st n = some st') :
    (∃ p, st'.1 = some p ∧ ∀ c, c ∈ p ↔ c ∈ st.1.getD [] ∨ Spec.Names w n c) ∧
    (∀ k m, (k, m) ∈ st'.2 ↔ (k, m) ∈ st.2 ∨ (w.pkis n = some m ∧ ∃ ca, w.ca m = some ca ∧ k = ca.ski)) := by
  unfold addRoot at h
  dsimp only at h
  cases hp : w.pkis n with
  | some m =>
    rw [hp] at h; dsimp only at h
    cases hca : w.ca m with
    | none => rw [hca] at h; cases h
    | some ca =>
      rw [hca] at h
      cases h
      refine ⟨⟨_, rfl, ?_⟩, ?_⟩
      · intro c
        simp only [List.mem_append, List.mem_singleton]
        refine or_congr_right ⟨?_, ?_⟩
        · rintro rfl; exact .pki hp hca
        · intro h
          cases h with
          | pki h1 h2 => rw [hp] at h1; cases h1; rw [hca] at h2; cases h2; rfl
          | file h1 => rw [hp] at h1; cases h1
          | text h1 => rw [hp] at h1; cases h1
      · intro k m'
        simp only [PkiMap.set, List.mem_cons, Prod.mk.injEq, Option.some.injEq]
        constructor
        · rintro (⟨rfl, rfl⟩ | h)
          · exact .inr ⟨rfl, ca, hca, rfl⟩
          · exact .inl h
        · rintro (h | ⟨rfl, ca', h, rfl⟩)
          · exact .inr h
          · rw [hca] at h; cases h; exact .inl ⟨rfl, rfl⟩
  | none =>
    rw [hp] at h; dsimp only at h
    unfold loadCerts at h
    cases hb : readEntry w n with
    | none => rw [hb] at h; cases h
    | some b =>
      rw [hb] at h; dsimp only at h
      by_cases he : (w.pem b).isEmpty
      · rw [if_pos he] at h; cases h
      · rw [if_neg he] at h
        cases h
        refine ⟨⟨_, rfl, ?_⟩, ?_⟩
        · intro c
          rw [List.mem_append, names_pem hp hb]
        · intro k m; simp

theorem addRoots_spec {w : World} {names : List String} {st st' : Pool × PkiMap} (h : addRoots w st names = some st') :
    (names = [] → st'.1 = st.1) ∧
    (names ≠ [] → ∃ p, st'.1 = some p ∧ ∀ c, c ∈ p ↔ c ∈ st.1.getD [] ∨ ∃ n ∈ names, Spec.Names w n c) ∧
    (∀ k m, (k, m) ∈ st'.2 ↔ (k, m) ∈ st.2 ∨ ∃ n ∈ names, w.pkis n = some m ∧ ∃ ca, w.ca m = some ca ∧ k = ca.ski) := by
  induction names generalizing st with
  | nil => cases h; simp
  | cons n ns ih =>
    unfold addRoots at h
    cases h1 : addRoot w st n with
    | none => rw [h1] at h; cases h
    | some s1 =>
      rw [h1] at h; dsimp only at h
      obtain ⟨⟨p, hp, hpc⟩, hm⟩ := addRoot_spec h1
      obtain ⟨i1, i2, i3⟩ := ih h
      refine ⟨by simp, fun _ => ?_, ?_⟩
      · by_cases hns : ns = []
        · refine ⟨p, by rw [i1 hns, hp], ?_⟩
          intro c; rw [hpc, hns]; simp
        · obtain ⟨p', hp', hpc'⟩ := i2 hns
          refine ⟨p', hp', ?_⟩
          intro c
          rw [hpc', hp, Option.getD_some, hpc]
          simp [or_assoc]
      · intro k m
        rw [i3, hm]
        simp [or_assoc]

/-- The pool that is used contains the CAs of the list and no others. -/
theorem pool_spec {w : World} {names : List String} {m : PkiMap} {p : Pool} {m' : PkiMap}
    (h : addRoots w (none, m) names = some (p, m')) (c : Cert) :
    c ∈ p.getD w.system ↔ Spec.Trusted w names c := by
  obtain ⟨h1, h2, -⟩ := addRoots_spec h
  unfold Spec.Trusted
  by_cases hn : names = []
  · have := h1 hn
    dsimp only at this
    subst this
    simp [hn]
  · obtain ⟨q, hq, hc⟩ := h2 hn
    dsimp only at hq
    subst hq
    rw [Option.getD_some, hc]
    simp [hn]

theorem addOverrides_spec {w : World} {os : List Target} {m m' : PkiMap} {ps : List Pool}
    (h : addOverrides w m os = some (ps, m')) :
    (∀ (i : Nat) (o : Target), os[i]? = some o → ∃ p : Pool, ps[i]? = some p ∧ ∀ c, c ∈ p.getD w.system ↔ Spec.Trusted w o.rootCAs c) ∧
    (∀ k v, (k, v) ∈ m' ↔ (k, v) ∈ m ∨ ∃ o ∈ os, ∃ n ∈ o.rootCAs, w.pkis n = some v ∧ ∃ ca, w.ca v = some ca ∧ k = ca.ski) := by
  induction os generalizing m m' ps with
  | nil => cases h; simp
  | cons o os ih =>
    unfold addOverrides at h
    cases h1 : addRoots w (none, m) o.rootCAs with
    | none => rw [h1] at h; cases h
    | some r =>
      obtain ⟨p, m1⟩ := r
      rw [h1] at h; dsimp only at h
      cases h2 : addOverrides w m1 os with
      | none => rw [h2] at h; cases h
      | some r =>
        obtain ⟨ps', m2⟩ := r
        rw [h2] at h
        cases h
        obtain ⟨i1, i2⟩ := ih h2
        obtain ⟨-, -, i3⟩ := addRoots_spec h1
        refine ⟨?_, ?_⟩
        · intro i o' ho
          cases i with
          | zero =>
            simp only [List.getElem?_cons_zero, Option.some.injEq] at ho
            subst ho
            exact ⟨p, by simp, pool_spec h1⟩
          | succ i =>
            simp only [List.getElem?_cons_succ] at ho ⊢
            exact i1 i o' ho
        · intro k v
          dsimp only at i3
          rw [i2, i3]
          simp [or_assoc]

/-- Everything that `build` promises. -/
theorem build_spec {w : World} {be : Backend} {b : Built} (h : build w be = some b) :
    (∀ c, c ∈ b.main.getD w.system ↔ Spec.Trusted w be.main.rootCAs c) ∧
    (∀ (i : Nat) (o : Target), be.overrides[i]? = some o → ∃ p : Pool, b.overrides[i]? = some p ∧
      ∀ c, c ∈ p.getD w.system ↔ Spec.Trusted w o.rootCAs c) ∧
    (∀ k m, (k, m) ∈ b.pkiMap ↔ Spec.Mentioned w be m ∧ ∃ ca, w.ca m = some ca ∧ k = ca.ski) := by
  unfold build at h
  cases h1 : addRoots w (none, []) be.clientRoots with
  | none => rw [h1] at h; cases h
  | some r =>
    obtain ⟨p1, m1⟩ := r
    rw [h1] at h; dsimp only at h
    cases h2 : addRoots w (none, m1) be.main.rootCAs with
    | none => rw [h2] at h; cases h
    | some r =>
      obtain ⟨p2, m2⟩ := r
      rw [h2] at h; dsimp only at h
      cases h3 : addOverrides w m2 be.overrides with
      | none => rw [h3] at h; cases h
      | some r =>
        obtain ⟨ps, m3⟩ := r
        rw [h3] at h
        cases h
        obtain ⟨o1, o2⟩ := addOverrides_spec h3
        obtain ⟨-, -, k1⟩ := addRoots_spec h1
        obtain ⟨-, -, k2⟩ := addRoots_spec h2
        refine ⟨pool_spec h2, o1, ?_⟩
        intro k m
        dsimp only at k1 k2 ⊢
        rw [o2, k2, k1]
        unfold Spec.Mentioned
        constructor
        · rintro (((h | ⟨n, hn, h, ca⟩) | ⟨n, hn, h, ca⟩) | ⟨o, ho, n, hn, h, ca⟩)
          · cases h
          · exact ⟨⟨n, h, .inl hn⟩, ca⟩
          · exact ⟨⟨n, h, .inr (.inl hn)⟩, ca⟩
          · exact ⟨⟨n, h, .inr (.inr ⟨o, ho, hn⟩)⟩, ca⟩
        · rintro ⟨⟨n, h, (hn | hn | ⟨o, ho, hn⟩)⟩, ca⟩
          · exact .inl (.inl (.inr ⟨n, hn, h, ca⟩))
          · exact .inl (.inr ⟨n, hn, h, ca⟩)
          · exact .inr ⟨o, ho, n, hn, h, ca⟩

theorem settings_spec {be : Backend} {slot : Option Nat} {t : Target} (h : Spec.Settings be slot t) :
    modeOf be slot = t.mode ∧ ∀ b, (tlsConfig be b slot).insecure = t.insecure ∧
      (tlsConfig be b slot).serverName = t.serverName := by
  rcases h with ⟨i, rfl, h⟩ | ⟨h, rfl⟩
  · simp [modeOf, tlsConfig, h]
  · have hn : (slot.bind fun i => be.overrides[i]?) = none := by
      cases slot with
      | none => rfl
      | some i => simpa using h i rfl
    simp [modeOf, tlsConfig, hn]

theorem settings_roots {w : World} {be : Backend} {b : Built} (hb : build w be = some b) {slot : Option Nat}
    {t : Target} (h : Spec.Settings be slot t) (c : Cert) :
    c ∈ (tlsConfig be b slot).rootCAs.getD w.system ↔ Spec.Trusted w t.rootCAs c := by
  obtain ⟨h1, h2, -⟩ := build_spec hb
  rcases h with ⟨i, rfl, h⟩ | ⟨h, rfl⟩
  · obtain ⟨p, hp, hc⟩ := h2 i t h
    simpa [tlsConfig, h, hp] using hc c
  · have hn : (slot.bind fun i => be.overrides[i]?) = none := by
      cases slot with
      | none => rfl
      | some i => simpa using h i rfl
    simpa [tlsConfig, hn] using h1 c

theorem verifyConnection_spec {w : World} {be : Backend} {b : Built} (hb : build w be = some b)
    (hd : Spec.Distinct w) (t : Moment) (certs : List Cert) (chains : List (List Cert)) :
    verifyConnection b t certs chains = true ↔
      ∃ cert rest, certs = cert :: rest ∧ Spec.Current w be t cert chains := by
  obtain ⟨-, -, hm⟩ := build_spec hb
  unfold verifyConnection
  cases certs with
  | nil => simp
  | cons cert rest =>
    dsimp only
    have lk : ∀ m, b.pkiMap.lookup cert.aki = some m → (cert.aki, m) ∈ b.pkiMap := by
      intro m
      generalize b.pkiMap = l
      intro h
      induction l with
      | nil => cases h
      | cons p l ih =>
        obtain ⟨k, v⟩ := p
        rw [List.lookup_cons] at h
        by_cases hk : cert.aki = k
        · simp [hk] at h; subst h; simp [hk]
        · rw [beq_false_of_ne hk] at h; exact List.mem_cons_of_mem _ (ih h)
    have lkn : b.pkiMap.lookup cert.aki = none → ∀ m, (cert.aki, m) ∉ b.pkiMap := by
      generalize b.pkiMap = l
      intro h m hmem
      exact absurd (List.lookup_eq_none_iff.mp h _ hmem) (by simp)
    cases hl : b.pkiMap.lookup cert.aki with
    | some m =>
      obtain ⟨hmen, ca, hca, hk⟩ := (hm _ _).mp (lk m hl)
      dsimp only
      constructor
      · intro hr
        refine ⟨cert, rest, rfl, ?_, ?_⟩
        · intro m' ca' hmen' hca' hk'
          have := hd m' m ca' ca hca' hca (by rw [← hk', hk])
          subst this
          simpa using hr
        · intro hno
          exact absurd hk (hno m ca hmen hca)
      · rintro ⟨c, r, he, hcur⟩
        cases he
        have := hcur.1 m ca hmen hca hk
        simp [this]
    | none =>
      dsimp only
      have hno : ∀ m ca, Spec.Mentioned w be m → w.ca m = some ca → cert.aki ≠ ca.ski := by
        intro m ca hmen hca hk
        exact lkn hl m ((hm _ _).mpr ⟨hmen, ca, hca, hk⟩)
      constructor
      · intro hr
        refine ⟨cert, rest, rfl, ?_, ?_⟩
        · intro m ca hmen hca hk
          exact absurd hk (hno m ca hmen hca)
        · intro _ hoc
          simpa [hoc] using hr
      · rintro ⟨c, r, he, hcur⟩
        cases he
        by_cases hoc : cert.ocsp
        · simp [hoc, hcur.2 hno hoc]
        · simp [hoc]

theorem handshake_spec {w : World} {be : Backend} {b : Built} (hb : build w be = some b)
    (hd : Spec.Distinct w) (t : Moment) (c : TlsConfig) (certs : List Cert) :
    handshake w b t c certs = true ↔ ∃ cert rest, certs = cert :: rest ∧
      ((c.insecure = true ∧ Spec.Current w be t cert []) ∨
       (c.insecure = false ∧ c.serverName ≠ "" ∧ w.verify (c.rootCAs.getD w.system) c.serverName certs ≠ [] ∧
         Spec.Current w be t cert (w.verify (c.rootCAs.getD w.system) c.serverName certs))) := by
  unfold handshake
  dsimp only
  cases hi : c.insecure with
  | true =>
    simp only [not_true_eq_false, and_false, if_false, if_true]
    rw [verifyConnection_spec hb hd]
    simp
  | false =>
    by_cases hn : c.serverName = ""
    · simp [hn]
    · by_cases hv : w.verify (c.rootCAs.getD w.system) c.serverName certs = []
      · simp [hn, hv]
      · simp only [hn, Bool.false_eq_true, not_false_eq_true, and_true, if_false, List.isEmpty_iff, hv, false_and,
          false_or, true_and, ne_eq]
        rw [verifyConnection_spec hb hd]

/-- C116. A connection over which data of clients is sent in mode TLS, HTTPS or QUIC, or over HTTP/3, comes
about exactly if the server presents certificates and
* verification is turned off for the path override (or backend), or there is a name to verify (the configured
  one; over QUIC the IP address in its absence) and the certificates verify for that name with exactly the
  CAs configured for the path override (or backend), or those of the system if none are; and
* in both cases the server's own certificate is not revoked by a PKI mentioned in the backend's configuration
  and, if it was not issued by one, OCSP does not object to it. -/
theorem connect_iff {w : World} {be : Backend} {b : Built} (hb : build w be = some b) (hd : Spec.Distinct w)
    {validFor : String → Cert → Prop} {signed : Cert → Cert → Prop} (hx : Spec.X509 w validFor signed)
    (t : Moment) (slot : Option Nat) (s : Target) (hs : Spec.Settings be slot s) (h3 : Bool) (addr : String)
    (hm : h3 = true ∨ s.mode ∈ ["TLS", "HTTPS", "QUIC"]) (certs : List Cert)
    (rs : List Cert) (hrs : ∀ c, c ∈ rs ↔ Spec.Trusted w s.rootCAs c) (name : String)
    (hname : name = Spec.nameFor w s (h3 || decide (s.mode = "QUIC")) addr) :
    connect w be b t slot h3 addr certs = some .tls ↔ ∃ cert rest, certs = cert :: rest ∧
      ((s.insecure = true ∧ Spec.Current w be t cert []) ∨
       (s.insecure = false ∧ name ≠ "" ∧ w.verify rs name certs ≠ [] ∧
         Spec.Current w be t cert (w.verify rs name certs))) := by
  obtain ⟨hmode, htc⟩ := settings_spec hs
  obtain ⟨hins, hsn⟩ := htc b
  have hroots : ∀ n, w.verify ((tlsConfig be b slot).rootCAs.getD w.system) n certs = w.verify rs n certs := by
    intro n
    refine hx.set _ _ _ _ ?_
    intro c
    rw [settings_roots hb hs, hrs]
  unfold connect
  rw [hmode]
  by_cases hq : h3 = true ∨ s.mode = "QUIC"
  · rw [if_pos hq]
    have hn : (quicConfig w addr (tlsConfig be b slot)).serverName = name := by
      have : (h3 || decide (s.mode = "QUIC")) = true := by simpa using hq
      rw [hname, this]
      unfold quicConfig Spec.nameFor
      by_cases he : s.serverName = "" <;> simp [hsn, he]
    have hi : (quicConfig w addr (tlsConfig be b slot)).insecure = s.insecure := by
      rw [← hins]; unfold quicConfig; split <;> rfl
    have hr : (quicConfig w addr (tlsConfig be b slot)).rootCAs = (tlsConfig be b slot).rootCAs := by
      unfold quicConfig; split <;> rfl
    have hh := handshake_spec hb hd t (quicConfig w addr (tlsConfig be b slot)) certs
    rw [hn, hi, hr, hroots] at hh
    rw [← hh]
    split <;> simp_all
  · rw [if_neg hq]
    have htl : s.mode = "TLS" ∨ s.mode = "HTTPS" := by
      rcases hm with hm | hm
      · exact absurd (.inl hm) hq
      · simp only [List.mem_cons, List.not_mem_nil, or_false] at hm
        rcases hm with hm | hm | hm
        · exact .inl hm
        · exact .inr hm
        · exact absurd (.inr hm) hq
    rw [if_pos htl]
    have hn : (tlsConfig be b slot).serverName = name := by
      have : (h3 || decide (s.mode = "QUIC")) = false := by
        simp only [not_or] at hq
        simp [hq]
      rw [hname, this, hsn]
      unfold Spec.nameFor
      by_cases he : s.serverName = "" <;> simp [he]
    have hh := handshake_spec hb hd t (tlsConfig be b slot) certs
    rw [hn, hins, hroots] at hh
    rw [← hh]
    split <;> simp_all

/-- The same in terms of who the server is: unless verification is turned off, the first certificate
presented is valid for the name, and there is a chain of signatures from it to a CA configured for this path
override (or backend). -/
theorem server_authenticated {w : World} {be : Backend} {b : Built} (hb : build w be = some b)
    (hd : Spec.Distinct w) {validFor : String → Cert → Prop} {signed : Cert → Cert → Prop}
    (hx : Spec.X509 w validFor signed) (t : Moment) (slot : Option Nat) (s : Target)
    (hs : Spec.Settings be slot s) (hi : s.insecure = false) (h3 : Bool) (addr : String)
    (hm : h3 = true ∨ s.mode ∈ ["TLS", "HTTPS", "QUIC"]) (certs : List Cert) (l : Link)
    (h : connect w be b t slot h3 addr certs = some l) :
    l = .tls ∧ ∃ cert rest above root, certs = cert :: rest ∧
      Spec.nameFor w s (h3 || decide (s.mode = "QUIC")) addr ≠ "" ∧
      validFor (Spec.nameFor w s (h3 || decide (s.mode = "QUIC")) addr) cert ∧
      (cert :: above).getLast? = some root ∧ Spec.Trusted w s.rootCAs root ∧
      (∀ pre x y post, cert :: above = pre ++ x :: y :: post → signed y x) ∧
      ∀ m ca, Spec.Mentioned w be m → w.ca m = some ca → cert.aki = ca.ski → t.revoked m cert.serial = false := by
  have hl : l = .tls := by
    have hmode := (settings_spec hs).1
    unfold connect at h
    rw [hmode] at h
    split at h
    · split at h <;> simp_all
    · rename_i hq
      rw [if_pos (by
        rcases hm with hm | hm
        · exact absurd (.inl hm) hq
        · simp only [List.mem_cons, List.not_mem_nil, or_false] at hm
          rcases hm with hm | hm | hm
          · exact .inl hm
          · exact .inr hm
          · exact absurd (.inr hm) hq)] at h
      split at h <;> simp_all
  subst hl
  refine ⟨rfl, ?_⟩
  obtain ⟨cert, rest, hc, hcase⟩ := (connect_iff hb hd hx t slot s hs h3 addr hm certs _
    (settings_roots hb hs) _ rfl).mp h
  rcases hcase with ⟨h1, -⟩ | ⟨-, hn, hv, hcur⟩
  · rw [hi] at h1; cases h1
  · obtain ⟨ch, chs, hch⟩ := List.exists_cons_of_ne_nil hv
    have hmem : ch ∈ w.verify ((tlsConfig be b slot).rootCAs.getD w.system)
        (Spec.nameFor w s (h3 || decide (s.mode = "QUIC")) addr) certs := by rw [hch]; simp
    obtain ⟨c, above, rfl, hhead, hval⟩ := hx.leaf _ _ _ _ hmem
    obtain ⟨root, hroot, hlast⟩ := hx.root _ _ _ _ hmem
    rw [hc] at hhead
    cases hhead
    exact ⟨cert, rest, above, root, hc, hn, hval, hlast, (settings_roots hb hs _).mp hroot,
      hx.links _ _ _ _ hmem, hcur.1⟩

/-- Which settings apply to the requests for a path. -/
def Spec.SettingsFor (cf : Pool.Conf) (be : Backend) (path : Verif.Path.Str) (s : Target) : Prop :=
  (∃ i o, Http.Spec.First cf.be.overrides (Verif.Path.Spec.clean path) i o ∧ be.overrides[i]? = some s) ∨
  (Http.Spec.NoneApplies cf.be.overrides (Verif.Path.Spec.clean path) ∧ s = be.main)

/-- C116 for requests. However requests, dials and the reuse of connections interleave: the connection over
which a request is sent was dialled with the settings for the path of this very request, so that
`connect_iff` and `server_authenticated` apply to its server with these settings. -/
theorem request_settings (enc : Dial.Header → Dial.Bytes) (cf : Pool.Conf) (be : Backend)
    (hlen : be.overrides.length = cf.be.overrides.length)
    (hinj : ∀ x y, cf.hash x = cf.hash y → x = y) (ops : List Pool.Op)
    (hops : ∀ q, Pool.Spec.Occurs q ops → ';' ∉ q.client.serverName.toList)
    (q : Pool.Request) (i : Nat) (h : (q, i) ∈ (({} : Pool.St).run enc cf ops).log) :
    ∃ c s, (({} : Pool.St).run enc cf ops).conns[i]? = some c ∧ Spec.SettingsFor cf be q.req.path s ∧
      Spec.Settings be c.dial.slot s := by
  have hI := Pool.inv_run enc cf ops
  obtain ⟨hoc, ov, k, c, ht, hc, hok, htr, hk⟩ := hI.2 (q, i) h
  obtain ⟨q', ov', hoc', ht', htr', hcl, hslot, houts, haddr⟩ := hI.1 c (List.mem_of_getElem? hc)
  dsimp only at hoc ht hc htr
  rw [hk] at ht'
  obtain ⟨p, hs, ck, he⟩ := Pool.target_some ht
  obtain ⟨p', hs', ck', he'⟩ := Pool.target_some ht'
  obtain ⟨-, hov, -⟩ := Http.pool_not_shared (q.context enc cf) (q'.context enc cf) cf.be q.req q'.req
    p p' hs hs' ck ck' ov ov' k rfl hinj (hops q hoc) (hops q' hoc') he he'
  subst hov
  rcases Http.override_forward _ _ _ _ _ _ _ _ he with ⟨j, o, rfl, hf, ho⟩ | ⟨rfl, hn, ha⟩
  · have hj : j < be.overrides.length := by
      rw [hlen]; exact (List.getElem?_eq_some_iff.mp hf.1).1
    exact ⟨c, be.overrides[j], hc, .inl ⟨j, o, hf, List.getElem?_eq_getElem hj⟩,
      .inl ⟨j, hslot, List.getElem?_eq_getElem hj⟩⟩
  · refine ⟨c, be.main, hc, .inr ⟨hn, rfl⟩, .inr ⟨?_, rfl⟩⟩
    intro i hi
    rw [hslot] at hi
    cases hi

/-! ## Configurations that can reach no server -/

/-- A configuration that passes the checks has its lists loaded, provided files and PKIs do not change
meanwhile. -/
theorem check_build (w : World) (be : Backend) (hca : ∀ n m, w.pkis n = some m → (w.ca m).isSome)
    (h : check w be = true) : (build w be).isSome := by
  have one : ∀ names st, checkList w names = true → (addRoots w st names).isSome := by
    intro names
    induction names with
    | nil => intro st _; rfl
    | cons n ns ih =>
      intro st hc
      unfold checkList at hc
      rw [List.all_cons, Bool.and_eq_true] at hc
      unfold addRoots
      cases h1 : addRoot w st n with
      | some st' => exact ih st' hc.2
      | none =>
        exfalso
        unfold addRoot at h1
        dsimp only at h1
        cases hp : w.pkis n with
        | some m =>
          have := hca n m hp
          rw [hp] at h1; dsimp only at h1
          cases hc : w.ca m with
          | none => simp [hc] at this
          | some ca => rw [hc] at h1; cases h1
        | none =>
          rw [hp] at h1; dsimp only at h1
          have hl := hc.1
          rw [hp] at hl
          unfold loadCerts at h1 hl
          cases hb : readEntry w n with
          | none => simp [hb] at hl
          | some b =>
            rw [hb] at h1 hl; dsimp only at h1 hl
            by_cases he : (w.pem b).isEmpty <;> simp [he] at h1 hl
  have many : ∀ os m, (os.all fun o => checkList w o.rootCAs) = true → (addOverrides w m os).isSome := by
    intro os
    induction os with
    | nil => intro m _; rfl
    | cons o os ih =>
      intro m hc
      rw [List.all_cons, Bool.and_eq_true] at hc
      unfold addOverrides
      cases h1 : addRoots w (none, m) o.rootCAs with
      | none => have := one _ (none, m) hc.1; simp [h1] at this
      | some r =>
        obtain ⟨p, m1⟩ := r
        dsimp only
        cases h2 : addOverrides w m1 os with
        | none => have := ih m1 hc.2; simp [h2] at this
        | some r => rfl
  unfold check at h
  simp only [Bool.and_eq_true] at h
  unfold build
  cases h1 : addRoots w (none, []) be.clientRoots with
  | none => have := one _ (none, []) h.1.1; simp [h1] at this
  | some r =>
    obtain ⟨p, m1⟩ := r
    dsimp only
    cases h2 : addRoots w (none, m1) be.main.rootCAs with
    | none => have := one _ (none, m1) h.1.2; simp [h2] at this
    | some r =>
      obtain ⟨p, m2⟩ := r
      dsimp only
      cases h3 : addOverrides w m2 be.overrides with
      | none => have := many _ m2 h.2; simp [h3] at this
      | some r => rfl

/-- C117, in part. If a backend or path override in mode TLS or HTTPS names the server, or turns verification
off, then every server that can prove to be the one configured, and is not known to be revoked, is reached.
What is missing: without a name no server is (`nameless_violated`). -/
theorem reachable_partial {w : World} {be : Backend} {b : Built} (hb : build w be = some b)
    (hd : Spec.Distinct w) {validFor : String → Cert → Prop} {signed : Cert → Cert → Prop}
    (hx : Spec.X509 w validFor signed) (t : Moment) (slot : Option Nat) (s : Target)
    (hs : Spec.Settings be slot s) (hm : s.mode = "TLS" ∨ s.mode = "HTTPS") (addr : String)
    (hname : s.serverName ≠ "" ∨ s.insecure = true)
    (cert : Cert) (rest : List Cert) (rs : List Cert) (hrs : ∀ c, c ∈ rs ↔ Spec.Trusted w s.rootCAs c)
    (hv : s.insecure = false → w.verify rs s.serverName (cert :: rest) ≠ [])
    (hcur : Spec.Current w be t cert (if s.insecure then [] else w.verify rs s.serverName (cert :: rest))) :
    connect w be b t slot false addr (cert :: rest) = some .tls := by
  refine (connect_iff hb hd hx t slot s hs false addr (.inr ?_) _ rs hrs _ rfl).mpr ⟨cert, rest, rfl, ?_⟩
  · rcases hm with h | h <;> simp [h]
  · have hq : s.mode ≠ "QUIC" := by rcases hm with h | h <;> simp [h]
    have hnf : Spec.nameFor w s (false || decide (s.mode = "QUIC")) addr = s.serverName := by
      unfold Spec.nameFor
      by_cases he : s.serverName = "" <;> simp [he, hq]
    rw [hnf]
    cases hi : s.insecure with
    | true => rw [hi, if_pos rfl] at hcur; exact .inl ⟨rfl, hcur⟩
    | false =>
      rw [hi] at hcur hname
      exact .inr ⟨rfl, by simpa using hname, hv hi, by simpa using hcur⟩

namespace Ex

def ca : Cert := { id := 1, serial := 1, ski := "k1", aki := "k1" }
def pub : Cert := { id := 2, serial := 1, ski := "k2", aki := "k2" }
def leaf : Cert := { id := 3, serial := 7, aki := "k1" }
def other : Cert := { id := 4, serial := 8, aki := "k2", ocsp := true }

/-- Both leaves are valid for "srv"; `leaf` is signed by the PKI "own", `other` by a public CA. -/
def w : World where
  pkis := fun n => if n = "own" then some 0 else none
  ca := fun m => if m = 0 then some ca else none
  file := fun n => if n = "/etc/ca.pem" then some "PEM" else none
  pem := fun t => if t = "PEM" then [pub] else []
  system := [pub]
  verify := fun rs n cs =>
    match cs with
    | c :: _ =>
      if n = "srv" ∧ c = leaf ∧ ca ∈ rs then [[leaf, ca]]
      else if n = "srv" ∧ c = other ∧ pub ∈ rs then [[other, pub]] else []
    | [] => []
  ip := fun _ => "192.0.2.1"

def validFor (n : String) (c : Cert) : Prop := n = "srv" ∧ (c = leaf ∨ c = other)
def signed (a b : Cert) : Prop := (a = ca ∧ b = leaf) ∨ (a = pub ∧ b = other)

theorem chains {rs : List Cert} {n : String} {cs ch : List Cert} (h : ch ∈ w.verify rs n cs) :
    n = "srv" ∧ ((cs.head? = some leaf ∧ ca ∈ rs ∧ ch = [leaf, ca]) ∨ (cs.head? = some other ∧ pub ∈ rs ∧ ch = [other, pub])) := by
  unfold w at h
  dsimp only at h
  split at h
  · split at h
    · rename_i hc; simp at h; exact ⟨hc.1, .inl ⟨by simp [hc.2.1], hc.2.2, h⟩⟩
    · split at h
      · rename_i hc; simp at h; exact ⟨hc.1, .inr ⟨by simp [hc.2.1], hc.2.2, h⟩⟩
      · cases h
  · cases h

theorem x509 : Spec.X509 w validFor signed where
  leaf := by
    intro rs n cs ch h
    obtain ⟨hn, ⟨h1, h2, rfl⟩ | ⟨h1, h2, rfl⟩⟩ := chains h
    · exact ⟨leaf, [ca], rfl, h1, hn, .inl rfl⟩
    · exact ⟨other, [pub], rfl, h1, hn, .inr rfl⟩
  root := by
    intro rs n cs ch h
    obtain ⟨hn, ⟨h1, h2, rfl⟩ | ⟨h1, h2, rfl⟩⟩ := chains h
    · exact ⟨ca, h2, rfl⟩
    · exact ⟨pub, h2, rfl⟩
  links := by
    intro rs n cs ch h pre a b post he
    obtain ⟨hn, ⟨h1, h2, rfl⟩ | ⟨h1, h2, rfl⟩⟩ := chains h
    · match pre with
      | [] => simp at he; exact .inl ⟨he.2.1.symm, he.1.symm⟩
      | [_] => simp at he
      | _ :: _ :: _ => simp at he
    · match pre with
      | [] => simp at he; exact .inr ⟨he.2.1.symm, he.1.symm⟩
      | [_] => simp at he
      | _ :: _ :: _ => simp at he
  set := by
    intro rs rs' n cs h
    unfold w
    dsimp only
    simp only [h]

theorem distinct : Spec.Distinct w := by
  intro m m' c c' h h' _
  unfold w at h h'
  dsimp only at h h'
  split at h <;> split at h' <;> simp_all

/-- HTTPS to "srv" with the own PKI; below one path to the same name with a public CA from a file. -/
def be : Backend where
  main := { mode := "HTTPS", serverName := "srv", rootCAs := ["own"] }
  overrides := [{ mode := "HTTPS", serverName := "srv", rootCAs := ["/etc/ca.pem"] }, { mode := "HTTPS" }]
  clientRoots := ["own"]

def built : Built where
  main := some [ca]
  overrides := [some [pub], none]
  pkiMap := [("k1", 0), ("k1", 0)]

def calm : Moment where
  revoked := fun _ _ => false
  ocspBad := fun _ => false

/-- Serial number 7 has been revoked by the PKI. -/
def alarm : Moment where
  revoked := fun m z => m == 0 && z == 7
  ocspBad := fun ch => ch == [[other, pub]]

theorem build_ok : build w be = some built := by decide +kernel

theorem check_ok : check w be = true := by decide +kernel

end Ex

/-- The hypotheses of `server_authenticated` are met: the server of the own PKI is accepted for the backend,
not for the override, which is served by the public one. -/
example : connect Ex.w Ex.be Ex.built Ex.calm none false "10.0.0.1:443" [Ex.leaf] = some .tls ∧
    connect Ex.w Ex.be Ex.built Ex.calm (some 0) false "10.0.0.1:443" [Ex.leaf] = none ∧
    connect Ex.w Ex.be Ex.built Ex.calm (some 0) false "10.0.0.1:443" [Ex.other] = some .tls ∧
    connect Ex.w Ex.be Ex.built Ex.calm none false "10.0.0.1:443" [Ex.other] = none := by decide +kernel

/-- Revoked certificates are refused, those of the PKI and those that OCSP objects to. -/
example : connect Ex.w Ex.be Ex.built Ex.alarm none false "10.0.0.1:443" [Ex.leaf] = none ∧
    connect Ex.w Ex.be Ex.built Ex.alarm (some 0) false "10.0.0.1:443" [Ex.other] = none := by decide +kernel

example : Spec.Settings Ex.be (some 0) { mode := "HTTPS", serverName := "srv", rootCAs := ["/etc/ca.pem"] } :=
  .inl ⟨0, rfl, rfl⟩

/-- C117 is violated: an accepted configuration (path override 1 in mode HTTPS, without `forwardServerName`)
with which no server whatsoever is reached, whatever certificates it presents and whenever. -/
theorem nameless_violated : ∃ (w : World) (be : Backend) (b : Built) (s : Target), check w be = true ∧
    build w be = some b ∧ Spec.Settings be (some 1) s ∧ s.mode = "HTTPS" ∧
    ∀ t addr certs, connect w be b t (some 1) false addr certs = none := by
  refine ⟨Ex.w, Ex.be, Ex.built, { mode := "HTTPS" }, Ex.check_ok, Ex.build_ok, .inl ⟨1, rfl, rfl⟩, rfl, ?_⟩
  intro t addr certs
  rfl

/-- This is so for every configuration without a name. -/
theorem nameless_unreachable (w : World) (be : Backend) (b : Built) (hb : build w be = some b)
    (hd : Spec.Distinct w) {validFor : String → Cert → Prop} {signed : Cert → Cert → Prop}
    (hx : Spec.X509 w validFor signed) (slot : Option Nat) (s : Target)
    (hs : Spec.Settings be slot s) (hm : s.mode = "TLS" ∨ s.mode = "HTTPS") (hn : s.serverName = "")
    (hi : s.insecure = false) (t : Moment) (addr : String) (certs : List Cert) :
    connect w be b t slot false addr certs = none := by
  cases h : connect w be b t slot false addr certs with
  | none => rfl
  | some l =>
    obtain ⟨-, cert, rest, above, root, -, hne, -⟩ := server_authenticated hb hd hx t slot s hs hi false addr
      (.inr (by rcases hm with h | h <;> simp [h])) certs l h
    have hq : s.mode ≠ "QUIC" := by rcases hm with h | h <;> simp [h]
    exact absurd (by simp [Spec.nameFor, hn, hq]) hne

/-- Without encryption nothing is checked. -/
theorem plain_iff (w : World) (be : Backend) (b : Built) (t : Moment) (slot : Option Nat) (s : Target)
    (hs : Spec.Settings be slot s) (h3 : Bool) (addr : String) (certs : List Cert) :
    connect w be b t slot h3 addr certs = some .plain ↔
      h3 = false ∧ s.mode ≠ "TLS" ∧ s.mode ≠ "HTTPS" ∧ s.mode ≠ "QUIC" := by
  have hmode := (settings_spec hs).1
  unfold connect
  rw [hmode]
  split
  · rename_i hq
    split <;> simp <;> (intro h; simp [h] at hq; simp [hq])
  · rename_i hq
    simp only [not_or, Bool.not_eq_true] at hq
    split
    · rename_i ht
      split <;> simp <;> (intro _ h1 h2; simp [h1, h2] at ht)
    · rename_i ht
      simp only [not_or] at ht
      simp [hq, ht]

end Verif.ServerAuth
