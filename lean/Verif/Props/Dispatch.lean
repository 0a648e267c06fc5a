import Verif.Model.Dispatch
import Verif.Props.Config
/-
C06, C07, C08, C11, C12, C27 (dispatch part), C85.
-/
namespace Verif.Dispatch

open Verif.Config (Route)

/-! ## Specification -/

/-- Bit `k` of an address, counted from the most significant bit of the first byte. -/
def Spec.bit (ip : IP) (k : Nat) : Bool := ((ip[k / 8]?).getD 0).toBitVec.getMsbD (k % 8)

/-- `ip` lies in the network: same length and the same first `ones` bits. -/
def Spec.inNet (net : IP) (ones : Nat) (ip : IP) : Prop :=
  ip.length = net.length ∧ ∀ k, k < ones → k < 8 * net.length → Spec.bit ip k = Spec.bit net k

/-- Canonical form of an address and a network: IPv4-mapped IPv6 is IPv4. -/
def Spec.canonIP (ip : IP) : IP :=
  if ip.length = 16 ∧ ip.take 12 = [0, 0, 0, 0, 0, 0, 0, 0, 0, 0, 255, 255] then ip.drop 12 else ip

/-- Membership of an address in a configured network. -/
def Spec.member (n : Cidr) (ip : IP) : Prop :=
  if n.ip.length = 16 ∧ (Spec.canonIP n.ip).length = 4 then
    Spec.inNet (Spec.canonIP n.ip) (n.ones - 96) (Spec.canonIP ip)
  else Spec.inNet (Spec.canonIP n.ip) n.ones (Spec.canonIP ip)

/-! ## C07 -/

theorem to4_canon (ip : IP) : (to4 ip).getD ip = Spec.canonIP ip := by
  unfold to4 Spec.canonIP
  split
  · rename_i h; rw [if_neg (by omega)]; rfl
  · split <;> rfl

theorem maskByte_bit (ones i j : Nat) (hj : j < 8) :
    (maskByte ones i).toBitVec.getMsbD j = decide (8 * i + j < ones) := by
  unfold maskByte
  split
  · have : decide (8 * i + j < ones) = true := by simp; omega
    rw [this]
    have h : ∀ j, j < 8 → (255 : UInt8).toBitVec.getMsbD j = true := by decide
    exact h j hj
  · split
    · have : decide (8 * i + j < ones) = false := by simp; omega
      rw [this]
      have h : ∀ j, j < 8 → (0 : UInt8).toBitVec.getMsbD j = false := by decide
      exact h j hj
    · have hr : ones - 8 * i < 8 := by omega
      have h : ∀ r, r < 8 → ∀ j, j < 8 →
          ((255 : UInt8) <<< (UInt8.ofNat (8 - r))).toBitVec.getMsbD j =
            (if r = 0 then ((255 : UInt8) <<< (UInt8.ofNat 8)).toBitVec.getMsbD j else decide (j < r)) := by
        decide
      rw [h _ hr j hj, if_neg (by omega)]
      simp; omega

theorem masked_eq_iff (ones i : Nat) (a b : UInt8) :
    (a &&& maskByte ones i) = (b &&& maskByte ones i) ↔
      ∀ j, j < 8 → 8 * i + j < ones → a.toBitVec.getMsbD j = b.toBitVec.getMsbD j := by
  constructor
  · intro h j hj hlt
    have h' := congrArg (fun x => (UInt8.toBitVec x).getMsbD j) h
    simp only [UInt8.toBitVec_and, BitVec.getMsbD_and, maskByte_bit ones i j hj] at h'
    simpa [hlt] using h'
  · intro h
    apply UInt8.eq_of_toBitVec_eq
    apply BitVec.eq_of_getMsbD_eq
    intro j hj
    simp only [UInt8.toBitVec_and, BitVec.getMsbD_and, maskByte_bit ones i j hj]
    by_cases hlt : 8 * i + j < ones
    · simp [hlt, h j hj hlt]
    · simp [hlt]

theorem maskedEq_iff (ones : Nat) (as bs : IP) (i : Nat) (hl : as.length = bs.length) :
    maskedEq ones i as bs = true ↔
      ∀ k, 8 * i + k < ones → k < 8 * as.length → Spec.bit as k = Spec.bit bs k := by
  induction as generalizing bs i with
  | nil =>
    cases bs with
    | nil => simp [maskedEq]
    | cons b bs => simp at hl
  | cons a as ih =>
    cases bs with
    | nil => simp at hl
    | cons b bs =>
      simp only [List.length_cons, Nat.add_right_cancel_iff] at hl
      simp only [maskedEq, decide_eq_true_eq, Bool.decide_and, Bool.and_eq_true, masked_eq_iff]
      rw [ih bs (i + 1) hl]
      constructor
      · rintro ⟨h1, h2⟩ k hk1 hk2
        by_cases hk : k < 8
        · have := h1 k hk hk1
          have e1 : k / 8 = 0 := by omega
          have e2 : k % 8 = k := by omega
          simpa [Spec.bit, e1, e2] using this
        · have := h2 (k - 8) (by omega) (by simp at hk2; omega)
          have e1 : k / 8 = (k - 8) / 8 + 1 := by omega
          have e2 : k % 8 = (k - 8) % 8 := by omega
          simpa [Spec.bit, e1, e2] using this
      · intro h
        constructor
        · intro j hj hlt
          have := h j hlt (by simp; omega)
          have e1 : j / 8 = 0 := by omega
          have e2 : j % 8 = j := by omega
          simpa [Spec.bit, e1, e2] using this
        · intro k hk1 hk2
          have := h (k + 8) (by omega) (by simp; omega)
          have e1 : (k + 8) / 8 = k / 8 + 1 := by omega
          have e2 : (k + 8) % 8 = k % 8 := by omega
          simpa [Spec.bit, e1, e2] using this

theorem contains_iff (n : Cidr) (ip : IP) : n.contains ip = true ↔ Spec.member n ip := by
  unfold Cidr.contains Spec.member Spec.inNet
  simp only [to4_canon]
  generalize Spec.canonIP ip = a
  generalize hb : Spec.canonIP n.ip = b
  by_cases hl : a.length = b.length
  · have hsym : ∀ x y : Bool, (x = y) = (y = x) := fun x y => propext ⟨Eq.symm, Eq.symm⟩
    by_cases h16 : n.ip.length = 16 ∧ b.length = 4
    · simp only [h16, hl, if_true, and_self, true_and, decide_eq_true_eq, Bool.decide_and,
        Bool.and_eq_true, Bool.decide_eq_true]
      rw [maskedEq_iff _ _ _ _ hl.symm]
      constructor
      · intro h k hk1 hk2
        exact (h k (by omega) (by omega)).symm
      · intro h k hk1 hk2
        exact (h k (by omega) (by omega)).symm
    · simp only [h16, hl, if_false, true_and, decide_eq_true_eq, Bool.decide_and,
        Bool.and_eq_true, Bool.decide_eq_true]
      rw [maskedEq_iff _ _ _ _ hl.symm]
      constructor
      · intro h k hk1 hk2
        exact (h k (by omega) hk2).symm
      · intro h k hk1 hk2
        exact (h k (by omega) hk2).symm
  · simp [hl]

/-- C07. A remote address is admitted iff it is an IP address, in no denied network and, when
an allow list is present (even an empty one), in some allowed network; membership is equality
of the first prefix-length bits within the same address family. -/
theorem ip_rules (deny allow : Option (List Cidr)) (addr : Option IP) :
    checkIP deny allow addr = true ↔
      ∃ ip, addr = some ip ∧
        (∀ l, deny = some l → ∀ n ∈ l, ¬ Spec.member n ip) ∧
        (∀ l, allow = some l → ∃ n ∈ l, Spec.member n ip) := by
  unfold checkIP
  cases addr with
  | none => simp
  | some ip =>
    have hany : ∀ l : List Cidr, l.any (·.contains ip) = true ↔ ∃ n ∈ l, Spec.member n ip := by
      intro l
      simp [List.any_eq_true, contains_iff]
    have hnany : ∀ l : List Cidr, l.any (·.contains ip) = false ↔ ∀ n ∈ l, ¬ Spec.member n ip := by
      intro l
      rw [← Bool.not_eq_true, hany]
      simp
    simp only [Option.some.injEq, exists_eq_left']
    cases deny with
    | none =>
      cases allow with
      | none => simp
      | some l => simp only [Bool.false_eq_true, if_false, hany]; simp
    | some d =>
      by_cases hd : d.any (·.contains ip) = true
      · simp only [hd, if_true]
        constructor
        · simp
        · rintro ⟨h, _⟩
          obtain ⟨n, hn, hm⟩ := (hany d).mp hd
          exact absurd hm (h d rfl n hn)
      · have hd' : d.any (·.contains ip) = false := by simpa using hd
        simp only [hd', Bool.false_eq_true, if_false]
        have := (hnany d).mp hd'
        cases allow with
        | none => simp; exact this
        | some l => simp only [hany]; simp; intro _ _ _; exact this

/-- 10.0.0.0/8 denied, 10.0.0.0/7 allowed: 11.1.2.3 passes, also as an IPv4-mapped address,
10.1.2.3 does not. -/
example : checkIP (some [⟨[10, 0, 0, 0], 8⟩]) (some [⟨[10, 0, 0, 0], 7⟩]) (some [11, 1, 2, 3]) = true ∧
    checkIP (some [⟨[10, 0, 0, 0], 8⟩]) (some [⟨[10, 0, 0, 0], 7⟩])
      (some [0, 0, 0, 0, 0, 0, 0, 0, 0, 0, 255, 255, 11, 1, 2, 3]) = true ∧
    checkIP (some [⟨[10, 0, 0, 0], 8⟩]) (some [⟨[10, 0, 0, 0], 7⟩]) (some [10, 1, 2, 3]) = false ∧
    checkIP none (some []) (some [10, 1, 2, 3]) = false ∧
    checkIP none none none = false := by decide

/-! ## C11 -/

/-- The ways an access list can name a certificate. -/
inductive Spec.Names : Cert → String → Prop where
  | bare (c : Cert) : c.subject ≠ "" → Names c c.subject
  | subject (c : Cert) : c.subject ≠ "" → Names c ("SUBJECT:" ++ c.subject)
  | dns (c : Cert) (v : String) : v ∈ c.dns → Names c ("DNS:" ++ v)
  | email (c : Cert) (v : String) : v ∈ c.emails → Names c ("EMAIL:" ++ v)
  | uri (c : Cert) (v : String) : v ∈ c.uris → Names c ("URI:" ++ v)

/-- C11. With an access list a certificate is authorized iff the list names it; without one
every certificate is. -/
theorem acl_exact (acl : Option (List String)) (c : Cert) :
    authorize acl c = true ↔ acl = none ∨ ∃ l, acl = some l ∧ ∃ e ∈ l, Spec.Names c e := by
  cases acl with
  | none => simp [authorize]
  | some l =>
    simp only [authorize, Option.some.injEq, exists_eq_left', reduceCtorEq, false_or]
    constructor
    · intro h
      split at h
      · rename_i hs
        rcases hs.2 with h1 | h1
        · exact ⟨_, h1, .bare c hs.1⟩
        · exact ⟨_, h1, .subject c hs.1⟩
      · split at h
        · rename_i hd
          obtain ⟨v, hv, hl⟩ := List.any_eq_true.mp hd
          exact ⟨_, by simpa using hl, .dns c v hv⟩
        · split at h
          · rename_i he
            obtain ⟨v, hv, hl⟩ := List.any_eq_true.mp he
            exact ⟨_, by simpa using hl, .email c v hv⟩
          · obtain ⟨v, hv, hl⟩ := List.any_eq_true.mp h
            exact ⟨_, by simpa using hl, .uri c v hv⟩
    · rintro ⟨e, he, hn⟩
      cases hn with
      | bare hs => rw [if_pos ⟨hs, Or.inl he⟩]
      | subject hs => rw [if_pos ⟨hs, Or.inr he⟩]
      | dns v hv =>
        split
        · rfl
        · rw [if_pos (List.any_eq_true.mpr ⟨v, hv, by simpa using he⟩)]
      | email v hv =>
        split
        · rfl
        · split
          · rfl
          · rw [if_pos (List.any_eq_true.mpr ⟨v, hv, by simpa using he⟩)]
      | uri v hv =>
        split
        · rfl
        · split
          · rfl
          · split
            · rfl
            · exact List.any_eq_true.mpr ⟨v, hv, by simpa using he⟩

/-- C11, no confusion between kinds: being listed as a DNS name does not help a certificate
that has the same text as an e-mail address or a URI. -/
theorem acl_no_confusion (v : String) (c : Cert) (hs : c.subject = "") (hd : v ∉ c.dns) :
    authorize (some ["DNS:" ++ v]) c = false := by
  rw [← Bool.not_eq_true, acl_exact]
  rintro (h | ⟨l, h, e, he, hn⟩)
  · cases h
  · cases h
    simp only [List.mem_singleton] at he
    have cancel : ∀ (k : String), "DNS:".toList.length ≤ (k ++ v).toList.length → True := fun _ _ => trivial
    generalize hx : "DNS:" ++ v = x at *
    cases hn with
    | bare h => exact h hs
    | subject h => exact h hs
    | dns w hw =>
      have : w = v := by
        have := congrArg String.toList (he.trans hx.symm)
        simp only [String.toList_append, List.append_cancel_left_eq] at this
        exact String.ext_iff.mpr this
      exact hd (this ▸ hw)
    | email w hw =>
      have := congrArg (fun s => s.toList.head?) (he.trans hx.symm)
      simp [String.toList_append] at this
    | uri w hw =>
      have := congrArg (fun s => s.toList.head?) (he.trans hx.symm)
      simp [String.toList_append] at this

example : authorize (some ["CN=a", "DNS:b"]) { subject := "CN=x", dns := ["c", "b"] } = true ∧
    authorize (some ["CN=a", "DNS:b"]) { subject := "CN=x", emails := ["b"] } = false ∧
    authorize (some []) { subject := "CN=a", dns := ["b"] } = false ∧
    authorize none {} = true := by decide

/-- A TCP connection whose peeked hello and TLS handshake agree. -/
def Spec.tcp (numOpen : Nat) (sni : String) (protos : List String) (addr : Option IP)
    (cert : Option Cert) : Conn where
  numOpen := numOpen
  hello := some (sni, protos)
  addr := addr
  client := { sni := sni, protos := protos, cert := cert }

/-! ## C06 -/

/-- The events that involve a backend's servers or HTTP handlers. -/
def Spec.contact : Event → Option Nat
  | .dial b => some b
  | .http b => some b
  | _ => none

/-- C06. A connection within the limit, whose hello parses, and whose server name (or the
default one) is not routed to a live backend, gets exactly the unrecognized_name alert and is
closed. -/
theorem unknown_name_alert (w : World) (c : Conn) (sni : String) (protos : List String)
    (hopen : (c.numOpen : Int) < w.maxOpen) (hh : c.hello = some (sni, protos))
    (hr : ∀ b, w.route (if sni = "" then w.defaultServerName else sni) protos ≠ .to b) :
    handleConnection w c = [.alertUnrecognizedName, .closed] := by
  unfold handleConnection
  rw [if_neg (by omega), hh]
  dsimp only
  split
  · rename_i b hb; exact absurd hb (hr b)
  · rfl

/-- The world runs the accepted configuration `cfg`. -/
structure Spec.Runs (w : World) (cfg : Config.Config) (down : Nat → Bool) : Prop where
  route : ∀ n ps, w.route n ps = Config.route (Config.tableOf cfg.backends) down n ps
  mode : ∀ i b, cfg.backends[i]? = some b → (w.be i).mode = b.mode
  protos : ∀ i b, cfg.backends[i]? = some b → (w.be i).protos = b.alpnProtos.getD []
  auth : ∀ i b, cfg.backends[i]? = some b →
    (w.be i).clientAuth = b.clientAuth.map fun ca => ca.acl

/-- C06 in terms of the configuration: a server name no backend declares. -/
theorem undeclared_name_alert (env : Config.Env) (raw cfg : Config.Config)
    (h : Config.check env raw = .ok cfg) (hne : ∀ be ∈ cfg.backends, "" ∉ be.alpnProtos.getD [])
    (w : World) (down : Nat → Bool) (hw : Spec.Runs w cfg down)
    (c : Conn) (sni : String) (protos : List String) (hp : "" ∉ protos)
    (hopen : (c.numOpen : Int) < w.maxOpen) (hh : c.hello = some (sni, protos))
    (hn : ∀ be ∈ cfg.backends, (if sni = "" then w.defaultServerName else sni) ∉ be.serverNames) :
    handleConnection w c = [.alertUnrecognizedName, .closed] := by
  apply unknown_name_alert w c sni protos hopen hh
  intro b hb
  rw [hw.route, (Config.refused_iff_undeclared env raw cfg h hne down _ protos hp).mpr hn] at hb
  cases hb

/-! ## C08 -/

theorem authorizeTLS_some {w : World} {b : Nat} {sn : String} {c : Client} {cert : Option Cert}
    (h : authorizeTLS w b sn c = some cert) :
    (if c.sni = "" then sn = w.defaultServerName else sn = c.sni) ∧
    (∀ acl, (w.be b).clientAuth = some acl →
      ∃ crt, cert = some crt ∧ c.cert = some crt ∧ c.chainOK = true ∧ authorize acl crt = true) := by
  unfold authorizeTLS at h
  simp only at h
  split at h
  · cases h
  · rename_i proto cert' hs
    split at h
    · cases h
    · rename_i hn
      constructor
      · split
        · rename_i h0
          apply Classical.byContradiction
          intro hc; exact hn (Or.inl ⟨h0, hc⟩)
        · rename_i h0
          apply Classical.byContradiction
          intro hc; exact hn (Or.inr ⟨h0, fun h => hc h.symm⟩)
      · intro acl hacl
        have hcert : ∃ crt, cert' = some crt ∧ c.cert = some crt ∧ c.chainOK = true := by
          unfold handshake at hs
          split at hs
          · cases hs
          · split at hs
            · cases hs
            · rw [hacl] at hs
              simp only at hs
              split at hs
              · cases hs
              · rename_i crt hc
                split at hs
                · cases hs
                · rename_i hchain
                  split at hs
                  · cases hs
                    exact ⟨crt, rfl, hc, by simpa using hchain⟩
                  · cases hs
        obtain ⟨crt, h1, h2, h3⟩ := hcert
        rw [hacl] at h
        cases acl with
        | none =>
          simp only [Option.some.injEq] at h
          exact ⟨crt, by rw [← h, h1], h2, h3, by simp [authorize]⟩
        | some l =>
          simp only [h1] at h
          split at h
          · rename_i ha
            cases h
            exact ⟨crt, rfl, h2, h3, ha⟩
          · cases h

/-- C08. In every execution of a TCP connection, whenever a backend's server is dialed or its
HTTP handler invoked, then before that: the connection was within the limit, its hello was
parsed, the name was routed to exactly that live backend, the backend's IP rules admitted the
remote address, the connection was not an ACME challenge for a TLS-terminating backend, and
unless the backend is a passthrough one the handshake was completed with the routed server
name and a certificate the backend's client authentication accepts. -/
theorem no_contact_before_checks (w : World) (c : Conn) (pre post : List Event) (e : Event) (b : Nat)
    (ht : handleConnection w c = pre ++ e :: post) (he : Spec.contact e = some b) :
    (c.numOpen : Int) < w.maxOpen ∧
    ∃ sni protos, c.hello = some (sni, protos) ∧
      w.route (if sni = "" then w.defaultServerName else sni) protos = .to b ∧
      checkIP (w.be b).denyIPs (w.be b).allowIPs c.addr = true ∧ .ipAllowed b ∈ pre ∧
      ((w.be b).mode ≠ "TLSPASSTHROUGH" →
        ¬ (protos = ["acme-tls/1"] ∧ sni ≠ "") ∧
        ∃ cert, .authorized b cert ∈ pre ∧
          (if c.client.sni = "" then (if sni = "" then w.defaultServerName else sni) = w.defaultServerName
            else (if sni = "" then w.defaultServerName else sni) = c.client.sni) ∧
          ∀ acl, (w.be b).clientAuth = some acl →
            ∃ crt, cert = some crt ∧ c.client.cert = some crt ∧ c.client.chainOK = true ∧
              authorize acl crt = true) := by
  have peel : ∀ (x : Event) (l : List Event), Spec.contact x = none → x :: l = pre ++ e :: post →
      ∃ pre', pre = x :: pre' ∧ l = pre' ++ e :: post := by
    intro x l hx hl
    cases pre with
    | nil => simp at hl; rw [hl.1] at hx; rw [hx] at he; cases he
    | cons y pre' => simp at hl; exact ⟨pre', by rw [hl.1], hl.2⟩
  have none_of : ∀ l : List Event, (∀ x ∈ l, Spec.contact x = none) → l ≠ pre ++ e :: post := by
    intro l hl heq
    have := hl e (by rw [heq]; simp)
    rw [this] at he; cases he
  unfold handleConnection at ht
  split at ht
  · exact absurd ht (none_of _ (by simp [Spec.contact]))
  · rename_i hopen
    refine ⟨by omega, ?_⟩
    split at ht
    · exact absurd ht (none_of _ (by simp [Spec.contact]))
    · rename_i sni protos hhello
      refine ⟨sni, protos, hhello, ?_⟩
      simp only at ht
      split at ht
      · rename_i b' hroute
        -- the routed backend is the contacted one
        unfold dispatch at ht
        simp only at ht
        split at ht
        · rename_i hpass
          split at ht
          · exact absurd ht (none_of _ (by simp [Spec.contact]))
          · rename_i hip
            obtain ⟨pre', hpre, ht⟩ := peel _ _ rfl ht
            unfold handlePassthrough at ht
            split at ht
            · exact absurd (by rw [hpre, List.cons_append, ← ht] : .ipAllowed b' :: _ = pre ++ e :: post)
                (none_of _ (by simp [Spec.contact]))
            · have hb : b = b' := by
                have hmem : e ∈ pre' ++ e :: post := by simp
                rw [← ht] at hmem
                split at hmem
                · simp only [List.mem_cons, List.not_mem_nil, or_false] at hmem
                  rcases hmem with rfl | rfl | rfl <;> simp [Spec.contact] at he
                  exact he.symm
                · simp only [List.mem_cons, List.not_mem_nil, or_false] at hmem
                  rcases hmem with rfl | rfl <;> simp [Spec.contact] at he
                  exact he.symm
              subst hb
              exact ⟨hroute, by simpa using hip, by simp [hpre], fun hc => absurd hpass hc⟩
        · rename_i hpass
          split at ht
          · exact absurd ht (none_of _ (by simp [Spec.contact]))
          · rename_i hacme
            have finish : ∀ (l : List Event) (cert : Option Cert),
                authorizeTLS w b' (if sni = "" then w.defaultServerName else sni) c.client = some cert →
                checkIP (w.be b').denyIPs (w.be b').allowIPs c.addr = true →
                (∀ x ∈ l, Spec.contact x = none ∨ Spec.contact x = some b') →
                .ipAllowed b' :: .authorized b' cert :: l = pre ++ e :: post →
                w.route (if sni = "" then w.defaultServerName else sni) protos = .to b ∧
                checkIP (w.be b).denyIPs (w.be b).allowIPs c.addr = true ∧ .ipAllowed b ∈ pre ∧
                ((w.be b).mode ≠ "TLSPASSTHROUGH" →
                  ¬ (protos = ["acme-tls/1"] ∧ sni ≠ "") ∧
                  ∃ cert, .authorized b cert ∈ pre ∧
                    (if c.client.sni = "" then
                      (if sni = "" then w.defaultServerName else sni) = w.defaultServerName
                      else (if sni = "" then w.defaultServerName else sni) = c.client.sni) ∧
                    ∀ acl, (w.be b).clientAuth = some acl →
                      ∃ crt, cert = some crt ∧ c.client.cert = some crt ∧ c.client.chainOK = true ∧
                        authorize acl crt = true) := by
              intro l cert hauth hip hl ht
              obtain ⟨p1, hp1, ht⟩ := peel _ _ rfl ht
              cases p1 with
              | nil => simp at ht; rw [← ht.1] at he; simp [Spec.contact] at he
              | cons y p2 =>
                simp at ht
                obtain ⟨rfl, ht⟩ := ht
                have hb : b' = b := by
                  have := hl e (by rw [ht]; simp)
                  rw [he] at this
                  simp only [reduceCtorEq, Option.some.injEq, false_or] at this
                  exact this.symm
                subst hb
                refine ⟨hroute, hip, by simp [hp1], fun _ => ⟨hacme, cert, by simp [hp1], ?_, ?_⟩⟩
                · exact (authorizeTLS_some hauth).1
                · exact (authorizeTLS_some hauth).2
            split at ht
            · split at ht
              · exact absurd ht (none_of _ (by simp [Spec.contact]))
              · rename_i hip
                unfold handleHTTP at ht
                split at ht
                · exact absurd ht (none_of _ (by simp [Spec.contact]))
                · rename_i cert hauth
                  split at ht
                  · exact finish _ cert hauth (by simpa using hip) (by simp [Spec.contact]) ht
                  · split at ht
                    · exact finish _ cert hauth (by simpa using hip) (by simp [Spec.contact]) ht
                    · exact finish _ cert hauth (by simpa using hip) (by simp [Spec.contact]) ht
            · split at ht
              · split at ht
                · exact absurd ht (none_of _ (by simp [Spec.contact]))
                · rename_i hip
                  unfold handleTLS at ht
                  split at ht
                  · exact absurd ht (none_of _ (by simp [Spec.contact]))
                  · rename_i cert hauth
                    split at ht
                    · exact finish _ cert hauth (by simpa using hip) (by simp [Spec.contact]) ht
                    · split at ht
                      · exact finish _ cert hauth (by simpa using hip) (by simp [Spec.contact]) ht
                      · exact finish _ cert hauth (by simpa using hip) (by simp [Spec.contact]) ht
              · exact absurd ht (none_of _ (by simp [Spec.contact]))
      · exact absurd ht (none_of _ (by simp [Spec.contact]))

/-- A backend behind client authentication with an access list. -/
def Spec.w1 : World where
  route n ps := if n = "a" then .to 0 else .unexpectedSNI
  be _ := { mode := "TCP", protos := ["h2"], clientAuth := some (some ["CN=ok"]),
            denyIPs := some [⟨[10, 0, 0, 0], 8⟩] }
  isRevoked _ _ := false
  ocspOK _ := true
  defaultServerName := "a"
  maxOpen := 5

example : handleConnection Spec.w1 (Spec.tcp 1 "a" ["h2"] (some [1, 2, 3, 4]) (some { subject := "CN=ok" })) =
    [.ipAllowed 0, .authorized 0 (some { subject := "CN=ok" }), .dial 0, .closed] := by decide
example : handleConnection Spec.w1 (Spec.tcp 1 "a" ["h2"] (some [10, 2, 3, 4]) (some { subject := "CN=ok" })) =
    [.alertUnrecognizedName, .closed] := by decide
example : handleConnection Spec.w1 (Spec.tcp 1 "a" ["h2"] (some [1, 2, 3, 4]) (some { subject := "CN=no" })) =
    [.ipAllowed 0, .closed] := by decide
example : handleConnection Spec.w1 (Spec.tcp 1 "b" ["h2"] (some [1, 2, 3, 4]) (none)) = [.alertUnrecognizedName, .closed] := by decide
example : handleConnection Spec.w1 (Spec.tcp 5 "a" ["h2"] (some [1, 2, 3, 4]) (none)) = [.alertCloseNotify, .closed] := by decide

/-! ## C12 -/

/-- The certificate is revoked as far as backend `b` can tell: its local authority says so, or
(for certificates of other authorities that name an OCSP server) OCSP verification fails. -/
def Spec.revoked (w : World) (b : Nat) (c : Cert) : Prop :=
  match (w.be b).pkiMap c.authorityKeyId with
  | some m => w.isRevoked m c.serial = true
  | none => c.hasOCSPServer = true ∧ w.ocspOK c = false

/-- Configuration for the witness: `a` without client authentication first, then an HTTP/3
backend for the same name that requires certificates of the local authority 7. -/
def Spec.w2 : World where
  route := Config.route (Config.tableOf
    [{ serverNames := ["a"], alpnProtos := some ["h2"] },
     { serverNames := ["a"], alpnProtos := some ["h3"] }]) (fun _ => false)
  be i := if i = 0 then { mode := "HTTP", protos := ["h2"] }
    else { mode := "HTTP", protos := ["h3"], clientAuth := some none,
           pkiMap := fun k => if k = "ca" then some 7 else none }
  isRevoked ca serial := ca = 7 ∧ serial = 13
  ocspOK _ := true
  defaultServerName := "a"
  maxOpen := 5

/-- C12 (violated). The handshake check looks the backend up again with the negotiated
protocol. A TCP client that offers `h3` is routed to the backend that declares it, but `h3` is
never negotiated over TCP, so the check consults the default backend of the name, which does
not ask for certificates: the revoked certificate is accepted and the connection served. -/
theorem revoked_refused_violated :
    ¬ ∀ (w : World) (c : Conn) (b : Nat) (crt : Cert), (w.be b).clientAuth ≠ none →
      c.client.cert = some crt → Spec.revoked w b crt →
      Event.http b ∉ handleConnection w c ∧ Event.dial b ∉ handleConnection w c := by
  intro h
  have := (h Spec.w2 (Spec.tcp 1 "a" ["h3"] (some [1, 2, 3, 4]) (some { subject := "CN=x", authorityKeyId := "ca", serial := 13 }))
    1 { subject := "CN=x", authorityKeyId := "ca", serial := 13 } (by decide) rfl
    (show true = true from rfl)).1
  revert this; decide

/-- The protocol of a connection is the first one of the backend's that the client offers. Without one
the connection goes on without a protocol, if one side names none (never over QUIC), or a client of
HTTP/1.1 meets a server of HTTP/2; otherwise the handshake fails. -/
theorem negotiated (server client : List String) (quic : Bool) (hs : "" ∉ server) :
    (∀ p, p ≠ "" → (negotiateALPN server client quic = some p ↔
      ∃ pre post, server = pre ++ p :: post ∧ p ∈ client ∧ ∀ q ∈ pre, q ∉ client)) ∧
    (negotiateALPN server client quic = some "" ↔
      (∀ p ∈ server, p ∉ client) ∧
        (server = [] ∨ (client = [] ∧ quic = false) ∨ ("h2" ∈ server ∧ "http/1.1" ∈ client))) := by
  unfold negotiateALPN
  by_cases h0 : server = [] ∨ client = []
  · rw [if_pos h0]
    constructor
    · intro p hp
      constructor
      · intro h
        split at h
        · exact (nomatch h)
        · cases h; exact absurd rfl hp
      · rintro ⟨pre, post, he, hc, _⟩
        rcases h0 with h0 | h0
        · rw [h0] at he; simp at he
        · rw [h0] at hc; exact (nomatch hc)
    · rcases h0 with h0 | h0
      · subst h0; simp
      · subst h0
        cases quic
        · simp
        · by_cases hs0 : server = [] <;> simp [hs0]
  · rw [if_neg h0]
    rw [not_or] at h0
    cases hf : server.find? (· ∈ client) with
    | some q =>
      have hq := List.find?_eq_some_iff_append.mp hf
      obtain ⟨hqc, as, bs, he, ha⟩ := hq
      have hqc : q ∈ client := by simpa using hqc
      have hq0 : q ≠ "" := by rintro rfl; exact hs (by rw [he]; simp)
      constructor
      · intro p hp
        constructor
        · intro h
          cases h
          exact ⟨as, bs, he, hqc, fun x hx => by simpa using ha x hx⟩
        · rintro ⟨pre, post, he', hc, hn⟩
          have : server.find? (· ∈ client) = some p := by
            rw [List.find?_eq_some_iff_append]
            exact ⟨by simpa using hc, pre, post, he', fun x hx => by simpa using hn x hx⟩
          rw [hf] at this
          exact this
      · constructor
        · intro h; cases h; exact absurd rfl hq0
        · rintro ⟨hn, _⟩
          exact absurd hqc (hn q (by rw [he]; simp))
    | none =>
      have hn : ∀ x ∈ server, x ∉ client := fun x hx => by simpa using List.find?_eq_none.mp hf x hx
      constructor
      · intro p hp
        constructor
        · intro h
          dsimp only at h
          split at h
          · cases h; exact absurd rfl hp
          · exact (nomatch h)
        · rintro ⟨pre, post, he', hc, _⟩
          exact absurd hc (hn p (by rw [he']; simp))
      · dsimp only
        constructor
        · intro h
          split at h
          · rename_i hh; exact ⟨hn, .inr (.inr hh)⟩
          · exact (nomatch h)
        · rintro ⟨_, h | h | h⟩
          · exact absurd h h0.1
          · exact absurd h.1 h0.2
          · rw [if_pos h]

example : negotiateALPN ["h2", "http/1.1"] ["http/1.1", "h2"] false = some "h2" ∧
    negotiateALPN ["h2"] ["http/1.1"] false = some "" ∧ negotiateALPN ["h3"] [] true = none ∧
    negotiateALPN ["h2"] ["imap"] false = none := by decide

/-- A handshake is completed exactly if nothing else goes wrong in it, a protocol is agreed on, and the
client shows the certificate that the backend requires, which the configured CAs have signed and which
`VerifyConnection` accepts. -/
theorem handshake_done (w : World) (b : Be) (np : List String) (quic : Bool) (c : Client) (p : String)
    (crt : Option Cert) :
    handshake w b np quic c = some (p, crt) ↔
      c.restOK = true ∧ negotiateALPN np c.protos quic = some p ∧
        (b.clientAuth = none ∧ crt = none ∨
          b.clientAuth ≠ none ∧ c.chainOK = true ∧ crt ≠ none ∧ c.cert = crt ∧
            verifyConnection w c.sni p crt true = true) := by
  unfold handshake
  cases hr : c.restOK with
  | false => simp
  | true =>
    rw [if_neg (by simp)]
    cases hn : negotiateALPN np c.protos quic with
    | none => simp
    | some q =>
      dsimp only
      cases ha : b.clientAuth with
      | none =>
        simp only [Option.some.injEq, Prod.mk.injEq, ne_eq, not_true, false_and, or_false, true_and]
        constructor
        · rintro ⟨rfl, rfl⟩; exact ⟨rfl, rfl⟩
        · rintro ⟨rfl, rfl⟩; exact ⟨rfl, rfl⟩
      | some acl =>
        dsimp only
        cases hc : c.cert with
        | none =>
          constructor
          · intro h; exact (nomatch h)
          · rintro ⟨_, _, ⟨h, _⟩ | ⟨_, _, h, h', _⟩⟩
            · exact (nomatch h)
            · exact absurd h'.symm h
        | some cert =>
          dsimp only
          cases hk : c.chainOK with
          | false => simp
          | true =>
            rw [if_neg (by simp)]
            constructor
            · intro h
              split at h
              · rename_i hv
                cases h
                exact ⟨rfl, rfl, .inr ⟨by simp, rfl, by simp, rfl, hv⟩⟩
              · exact (nomatch h)
            · rintro ⟨_, hq, ⟨h, _⟩ | ⟨_, _, _, h, hv⟩⟩
              · exact (nomatch h)
              · cases hq; subst h; rw [if_pos hv]

example : handshake Spec.w2 (Spec.w2.be 1) (Spec.w2.be 1).nextProtosTCP false
    (Spec.tcp 1 "a" ["h3"] none none).client = none := by decide

theorem handshake_revoked {w : World} {b : Nat} {np : List String} {quic : Bool} {c : Client}
    {crt : Cert} (hca : (w.be b).clientAuth ≠ none) (hc : c.cert = some crt)
    (hrev : Spec.revoked w b crt)
    (hagree : ∀ p, negotiateALPN np c.protos quic = some p → w.route c.sni [p] = .to b) :
    handshake w (w.be b) np quic c = none := by
  unfold handshake
  split
  · rfl
  · split
    · rfl
    · rename_i proto hp
      cases hauth : (w.be b).clientAuth with
      | none => exact absurd hauth hca
      | some acl =>
        simp only [hc]
        split
        · rfl
        · have hv : verifyConnection w c.sni proto (some crt) true = false := by
            unfold verifyConnection
            rw [hagree proto hp]
            simp only [hauth]
            unfold Spec.revoked at hrev
            cases hm : (w.be b).pkiMap crt.authorityKeyId with
            | some m => rw [hm] at hrev; simp [hrev]
            | none => rw [hm] at hrev; simp [hrev.1, hrev.2]
          simp [hv]

theorem handshake_none_no_contact {w : World} {c : Conn} {b : Nat}
    (hnp : (w.be b).mode ≠ "TLSPASSTHROUGH")
    (h : (∃ sni protos, c.hello = some (sni, protos) ∧
        w.route (if sni = "" then w.defaultServerName else sni) protos = .to b) →
      handshake w (w.be b) (w.be b).nextProtosTCP false c.client = none) :
    Event.http b ∉ handleConnection w c ∧ Event.dial b ∉ handleConnection w c := by
  have key : ∀ e, Spec.contact e = some b → e ∉ handleConnection w c := by
    intro e he hmem
    obtain ⟨pre, post, ht⟩ := List.append_of_mem hmem
    obtain ⟨_, sni, protos, hh, hr, _, _, hrest⟩ := no_contact_before_checks w c pre post e b ht he
    obtain ⟨_, cert, hin, _, _⟩ := hrest hnp
    have hs := h ⟨sni, protos, hh, hr⟩
    -- authorized b cert in the trace implies a completed handshake
    have hin' : Event.authorized b cert ∈ handleConnection w c := by rw [ht]; simp [hin]
    have hauthN : ∀ sn, authorizeTLS w b sn c.client = none := by
      intro sn; unfold authorizeTLS; simp [hs]
    unfold handleConnection at hin'
    split at hin'
    · simp at hin'
    · rw [hh] at hin'
      simp only [hr] at hin'
      unfold dispatch handleHTTP handleTLS at hin'
      simp only [hauthN, if_neg hnp] at hin'
      split at hin'
      · simp at hin'
      · split at hin'
        · first | simp at hin' | (split at hin' <;> simp at hin')
        · split at hin'
          · first | simp at hin' | (split at hin' <;> simp at hin')
          · simp at hin'
  exact ⟨key _ rfl, key _ rfl⟩

/-- C12 (partial, 1). Whenever the second lookup agrees with the backend that serves the
connection, a client with a revoked certificate reaches neither its servers nor its
handlers. Missing: the two lookups can disagree (see `revoked_refused_violated`). -/
theorem revoked_refused_partial (w : World) (c : Conn) (b : Nat) (crt : Cert)
    (hca : (w.be b).clientAuth ≠ none) (hnp : (w.be b).mode ≠ "TLSPASSTHROUGH")
    (hc : c.client.cert = some crt) (hrev : Spec.revoked w b crt)
    (hagree : ∀ p, negotiateALPN (w.be b).nextProtosTCP c.client.protos false = some p →
      w.route c.client.sni [p] = .to b) :
    Event.http b ∉ handleConnection w c ∧ Event.dial b ∉ handleConnection w c :=
  handshake_none_no_contact hnp (fun _ => handshake_revoked hca hc hrev hagree)

theorem findSome_spec {α : Type} {l : List String} {f : String → Option α} {a : α}
    (h : l.findSome? f = some a) : ∃ x ∈ l, f x = some a := by
  rw [List.findSome?_eq_some_iff] at h
  obtain ⟨l1, x, l2, rfl, hf, _⟩ := h
  exact ⟨x, by simp, hf⟩

/-- The protocol negotiated with a backend leads back to that backend, provided `h3` cannot be what the client
was routed by: either the backend does not declare it, or the client does not offer it. -/
theorem route_again (env : Config.Env) (raw cfg : Config.Config)
    (h : Config.check env raw = .ok cfg) (hne : ∀ be ∈ cfg.backends, "" ∉ be.alpnProtos.getD [])
    (w : World) (down : Nat → Bool) (hw : Spec.Runs w cfg down)
    (b : Nat) (be : Config.Backend) (hb : cfg.backends[b]? = some be)
    (sni : String) (protos : List String) (hpr : "" ∉ protos)
    (hno3 : "h3" ∉ be.alpnProtos.getD [] ∨ "h3" ∉ protos)
    (hr : w.route sni protos = .to b) (p : String)
    (hneg : negotiateALPN (w.be b).nextProtosTCP protos false = some p) :
    w.route sni [p] = .to b := by
  have hnp : ∀ q, q ∈ (w.be b).nextProtosTCP ↔ q ∈ be.alpnProtos.getD [] ∧ q ≠ "h3" := by
    intro q
    unfold Be.nextProtosTCP Be.nextProtosQUIC
    rw [hw.protos b be hb, List.filter_filter, List.mem_filter]
    by_cases hq : q = "h3" <;> simp [quicOnly, hq]
  -- hr : the hello is routed to b; hneg : p negotiated with b's protocols
  rw [hw.route] at hr ⊢
  have hbne : "" ∉ be.alpnProtos.getD [] := hne be (List.mem_of_getElem? hb)
  have hdown : down b = false := by
    unfold Config.route at hr
    split at hr
    · cases hr
    · split at hr
      · cases hr
      · rename_i hd; cases hr; simpa using hd
  have hnd := (Config.checkNames_none (Config.check_parts h).2.2.2.2.1).1
  -- b declares sni
  rw [Config.routing_partial env raw cfg h hne down sni protos hpr] at hr
  have hroute : Config.Spec.route cfg.backends sni protos = some b := by
    split at hr
    · cases hr
    · rename_i i hi
      split at hr
      · cases hr
      · cases hr; exact hi
  have hname : sni ∈ be.serverNames := by
    unfold Config.Spec.route at hroute
    split at hroute
    · rename_i i hi
      cases hroute
      obtain ⟨q, _, hq⟩ := findSome_spec hi
      obtain ⟨hlt, hp', _⟩ := List.findIdx?_eq_some_iff_getElem.mp hq
      obtain ⟨_, rfl⟩ := List.getElem?_eq_some_iff.mp hb
      simp at hp'
      exact hp'.1
    · obtain ⟨hlt, hp', _⟩ := List.findIdx?_eq_some_iff_getElem.mp hroute
      obtain ⟨_, rfl⟩ := List.getElem?_eq_some_iff.mp hb
      simpa using hp'
  by_cases hp0 : p = ""
  · -- nothing negotiated: then no offered protocol is declared for the name by b
    subst hp0
    have hnone : ∀ q ∈ protos, q ∉ be.alpnProtos.getD [] := by
      intro q hq hq'
      have hq3 : q ≠ "h3" := by
        rintro rfl
        rcases hno3 with h | h
        · exact h hq'
        · exact h hq
      have hqn := (hnp q).mpr ⟨hq', hq3⟩
      unfold negotiateALPN at hneg
      split at hneg
      · rename_i h0
        rcases h0 with h0 | h0
        · rw [h0] at hqn; simp at hqn
        · rw [h0] at hq; simp at hq
      · split at hneg
        · rename_i r hr'
          cases hneg
          exact hbne ((hnp _).mp (List.mem_of_find?_eq_some hr')).1
        · rename_i hnf
          have := List.find?_eq_none.mp hnf q hqn
          simp at this
          exact this hq
    have hdef : Config.tableOf cfg.backends sni "" = some b := by
      unfold Config.Spec.route at hroute
      split at hroute
      · rename_i i hi
        cases hroute
        obtain ⟨q, hq1, hq⟩ := findSome_spec hi
        obtain ⟨hlt, hp', _⟩ := List.findIdx?_eq_some_iff_getElem.mp hq
        obtain ⟨_, rfl⟩ := List.getElem?_eq_some_iff.mp hb
        simp at hp'
        exact absurd hp'.2 (hnone q hq1)
      · have := Config.buildTable_default (fun _ _ => none) 0 cfg.backends sni hne
        unfold Config.tableOf
        rw [this]
        simp [hroute]
    unfold Config.route
    simp [Config.lookupProtos, hdef, hdown]
  · have hpm : p ∈ be.alpnProtos.getD [] := by
      unfold negotiateALPN at hneg
      split at hneg
      · split at hneg <;> cases hneg
        exact absurd rfl hp0
      · split at hneg
        · rename_i r hr'
          cases hneg
          exact ((hnp _).mp (List.mem_of_find?_eq_some hr')).1
        · split at hneg <;> cases hneg
          exact absurd rfl hp0
    have ht : Config.tableOf cfg.backends sni p = some b := by
      have := Config.buildTable_proto_some (fun _ _ => none) 0 cfg.backends sni p hp0 b be hb
        (by simp [Config.declares, hname, hpm])
        (fun k b' hk hd => Config.pairs_unique cfg.backends hnd sni p k b b' be hk hb hd
          (by simp [Config.declares, hname, hpm]))
      simpa [Config.tableOf] using this
    unfold Config.route
    simp [Config.lookupProtos, ht, hdown]

/-- C12 (partial, 2). In terms of the configuration: for every accepted configuration (in which nobody declares
the empty protocol), every client that names the server is refused if its certificate is revoked, unless it
offers `h3` over TCP and the serving backend declares that. -/
theorem revoked_refused_noh3_partial (env : Config.Env) (raw cfg : Config.Config)
    (h : Config.check env raw = .ok cfg) (hne : ∀ be ∈ cfg.backends, "" ∉ be.alpnProtos.getD [])
    (w : World) (down : Nat → Bool) (hw : Spec.Runs w cfg down)
    (c : Conn) (b : Nat) (be : Config.Backend) (hb : cfg.backends[b]? = some be)
    (crt : Cert) (hca : be.clientAuth ≠ none)
    (sni : String) (protos : List String) (hsni : sni ≠ "") (hpr : "" ∉ protos)
    (hno3 : "h3" ∉ be.alpnProtos.getD [] ∨ "h3" ∉ protos)
    (hhello : c.hello = some (sni, protos)) (htls : c.client.sni = sni ∧ c.client.protos = protos)
    (hc : c.client.cert = some crt) (hrev : Spec.revoked w b crt) :
    Event.http b ∉ handleConnection w c ∧ Event.dial b ∉ handleConnection w c := by
  have hmode : (w.be b).mode ≠ "TLSPASSTHROUGH" := by
    rw [hw.mode b be hb]
    intro hc
    exact hca ((Config.accepted_consistent env raw cfg h).passthrough_no_auth be
      (List.mem_of_getElem? hb) hc)
  have hauth : (w.be b).clientAuth ≠ none := by
    rw [hw.auth b be hb]
    cases hx : be.clientAuth with
    | none => exact absurd hx hca
    | some ca => simp
  refine handshake_none_no_contact hmode ?_
  rintro ⟨sni', protos', hh, hr⟩
  rw [hhello] at hh; cases hh
  rw [if_neg hsni] at hr
  apply handshake_revoked hauth hc hrev
  intro p hneg
  rw [htls.1]
  rw [htls.2] at hneg
  exact route_again env raw cfg h hne w down hw b be hb sni protos hpr hno3 hr p hneg

/-- Non-vacuity: with an `h2` backend the same revoked certificate is refused, a good one is
served. -/
def Spec.w3 : World :=
  { Spec.w2 with
    route := Config.route (Config.tableOf
      [{ serverNames := ["a"], alpnProtos := some ["http/1.1"] },
       { serverNames := ["a"], alpnProtos := some ["h2"] }]) (fun _ => false)
    be := fun i => if i = 0 then { mode := "HTTP", protos := ["http/1.1"] }
      else { mode := "HTTP", protos := ["h2"], clientAuth := some none,
             pkiMap := fun k => if k = "ca" then some 7 else none } }

example : handleConnection Spec.w3 (Spec.tcp 1 "a" ["h2"] (some [1, 2, 3, 4]) (some { subject := "CN=x", authorityKeyId := "ca", serial := 13 })) =
    [.ipAllowed 1, .closed] := by decide
example : handleConnection Spec.w3 (Spec.tcp 1 "a" ["h2"] (some [1, 2, 3, 4]) (some { subject := "CN=x", authorityKeyId := "ca", serial := 14 })) =
    [.ipAllowed 1, .authorized 1 (some { subject := "CN=x", authorityKeyId := "ca", serial := 14 }),
      .http 1] := by decide

/-! ## C27 (dispatch part) -/

/-- C27 (violated). A backend in a raw mode may carry a single sign-on policy; validation
accepts it, and its server is dialed for a client without any identity. -/
theorem sso_every_config_violated :
    ¬ ∀ (env : Config.Env) (raw cfg : Config.Config), Config.check env raw = .ok cfg →
      ∀ (w : World) (down : Nat → Bool), Spec.Runs w cfg down →
      ∀ (b : Nat) (be : Config.Backend), cfg.backends[b]? = some be → be.sso ≠ none →
      ∀ c : Conn, Event.dial b ∉ handleConnection w c := by
  intro h
  let raw : Config.Config :=
    { oidc := [{ name := "p", discoveryURL := "d", redirectURL := "r", clientID := "i", clientSecret := "s" }],
      backends := [{ serverNames := ["a"], alpnProtos := some ["h2"], mode := "TCP", addresses := ["x:1"],
                     sso := some { provider := "p" } }] }
  have := h Config.Spec.env raw (Config.normalise Config.Spec.env raw) (Config.accepted (by decide))
    { route := Config.route (Config.tableOf (Config.normalise Config.Spec.env raw).backends) (fun _ => false)
      be := fun _ => { mode := "TCP", protos := ["h2"] }
      isRevoked := fun _ _ => false, ocspOK := fun _ => true, defaultServerName := "", maxOpen := 5 }
    (fun _ => false)
    ⟨fun _ _ => rfl, by
      intro i b hb
      have : i = 0 := by
        have := (List.getElem?_eq_some_iff.mp hb).1
        simpa [raw, Config.normalise] using this
      subst this; cases hb; rfl, by
      intro i b hb
      have : i = 0 := by
        have := (List.getElem?_eq_some_iff.mp hb).1
        simpa [raw, Config.normalise] using this
      subst this; cases hb; rfl, by
      intro i b hb
      have : i = 0 := by
        have := (List.getElem?_eq_some_iff.mp hb).1
        simpa [raw, Config.normalise] using this
      subst this; cases hb; rfl⟩
    0 { serverNames := ["a"], alpnProtos := some ["h2"], mode := "TCP", addresses := ["x:1"],
        sso := some { provider := "p" } } rfl (by simp)
    (Spec.tcp 1 "a" ["h2"] (some [1, 2, 3, 4]) (none))
  revert this; decide

/-- C27 (partial). A backend in one of the four HTTP modes is never dialed by the connection
dispatcher itself: the connection can only be handed to its HTTP server, whose handlers
enforce the policy (C24). Missing: raw modes. -/
theorem sso_http_modes_partial (w : World) (c : Conn) (b : Nat)
    (hm : (w.be b).mode ∈ ["HTTP", "HTTPS", "LOCAL", "CONSOLE"]) :
    Event.dial b ∉ handleConnection w c := by
  intro hmem
  simp only [List.mem_cons, List.not_mem_nil, or_false] at hm
  unfold handleConnection at hmem
  split at hmem
  · simp at hmem
  · split at hmem
    · simp at hmem
    · simp only at hmem
      split at hmem
      · rename_i b' _
        by_cases hbb : b' = b
        · subst hbb
          have hpass : ¬ (w.be b').mode = "TLSPASSTHROUGH" := by
            rcases hm with hm | hm | hm | hm <;> simp [hm]
          have hhttp : (w.be b').mode = "CONSOLE" ∨ (w.be b').mode = "LOCAL" ∨
              (w.be b').mode = "HTTP" ∨ (w.be b').mode = "HTTPS" := by
            rcases hm with hm | hm | hm | hm <;> simp [hm]
          unfold dispatch handleHTTP at hmem
          simp only [if_neg hpass, if_pos hhttp] at hmem
          split at hmem
          · simp at hmem
          · split at hmem
            · simp at hmem
            · split at hmem
              · simp at hmem
              · split at hmem
                · simp at hmem
                · split at hmem <;> simp at hmem
        · unfold dispatch handleHTTP handleTLS handlePassthrough at hmem
          simp only at hmem
          repeat' split at hmem
          all_goals simp at hmem
          all_goals exact hbb hmem.symm
      · simp at hmem

/-! ## C85 -/

def Spec.qcontact : QEvent → Option Nat
  | .http3 b => some b
  | .dialQUIC b => some b
  | .streams b => some b
  | _ => none

/-- Witness configuration: the default backend of `a` requires client certificates; another
TCP backend declares `h3` for the same name. -/
def Spec.w4 : World where
  route := Config.route (Config.tableOf
    [{ serverNames := ["a"], alpnProtos := some ["h2"] },
     { serverNames := ["a"], alpnProtos := some ["h3"] }]) (fun _ => false)
  be i := if i = 0 then { mode := "TCP", protos := ["h2"], clientAuth := some none }
    else { mode := "TCP", protos := ["h3"] }
  isRevoked _ _ := false
  ocspOK _ := true
  defaultServerName := "a"
  maxOpen := 5

/-- C85 (violated). A QUIC client offering `h3` to a raw TCP backend that declares `h3` is
handshaken with that backend's settings, but `h3` was removed from the offer, nothing is
negotiated, and the connection is then served by the default backend of the name, which
neither declares the protocol nor had its client authentication applied. -/
theorem quic_admission_violated :
    ¬ ∀ (w : World) (declared : String → String → Option Nat) (c : QConn) (b : Nat) (e : QEvent),
      e ∈ handleQUIC w declared c → Spec.qcontact e = some b →
      (∃ p ∈ c.client.protos, declared c.client.sni p = some b) ∧
      ((w.be b).clientAuth ≠ none → c.client.cert ≠ none) := by
  intro h
  have := h Spec.w4 (Config.tableOf
    [{ serverNames := ["a"], alpnProtos := some ["h2"] },
     { serverNames := ["a"], alpnProtos := some ["h3"] }])
    { client := { sni := "a", protos := ["h3"] }, numOpen := 1, addr := some [1, 2, 3, 4] } 0
    (.streams 0) (by decide) rfl
  exact absurd rfl (this.2 (by decide))

theorem configForClient_some {w : World} {declared : String → String → Option Nat} {n : String}
    {ps : List String} {b : Nat} (h : configForClient w declared n ps = some b) :
    (∃ p ∈ ps, declared n p = some b) ∧ (w.be b).mode ≠ "TLSPASSTHROUGH" := by
  induction ps with
  | nil => simp [configForClient] at h
  | cons p ps ih =>
    simp only [configForClient] at h
    split at h
    · rename_i b' hb'
      split at h
      · rename_i hm
        cases h
        exact ⟨⟨p, by simp, hb'⟩, hm⟩
      · obtain ⟨⟨q, hq, hd⟩, hm⟩ := ih h
        exact ⟨⟨q, by simp [hq], hd⟩, hm⟩
    · obtain ⟨⟨q, hq, hd⟩, hm⟩ := ih h
      exact ⟨⟨q, by simp [hq], hd⟩, hm⟩

/-- C85 (partial). For every accepted configuration in which raw TCP/TLS backends do not
declare `h3`: a QUIC connection is served only by a backend that declares the server name
together with a protocol the client offered (the negotiated one), is not a passthrough
backend, within the connection limit, after its IP rules admitted the address, and with its
client authentication satisfied. Missing: raw backends declaring `h3`. -/
theorem quic_admission_partial (env : Config.Env) (raw cfg : Config.Config)
    (h : Config.check env raw = .ok cfg) (hne : ∀ be ∈ cfg.backends, "" ∉ be.alpnProtos.getD [])
    (hraw : ∀ be ∈ cfg.backends, be.mode = "TCP" ∨ be.mode = "TLS" → "h3" ∉ be.alpnProtos.getD [])
    (w : World) (down : Nat → Bool) (hw : Spec.Runs w cfg down)
    (c : QConn) (hpr : "" ∉ c.client.protos)
    (pre post : List QEvent) (e : QEvent) (b : Nat)
    (ht : handleQUIC w (Config.tableOf cfg.backends) c = pre ++ e :: post)
    (he : Spec.qcontact e = some b) :
    ∃ be p, cfg.backends[b]? = some be ∧ c.client.sni ∈ be.serverNames ∧
      p ∈ be.alpnProtos.getD [] ∧ p ∈ c.client.protos ∧ be.mode ≠ "TLSPASSTHROUGH" ∧
      (c.numOpen : Int) < w.maxOpen ∧
      checkIP (w.be b).denyIPs (w.be b).allowIPs c.addr = true ∧ .ipAllowed b ∈ pre ∧
      (∀ acl, (w.be b).clientAuth = some acl → ∃ crt, c.client.cert = some crt ∧
        c.client.chainOK = true ∧ ¬ Spec.revoked w b crt ∧ authorize acl crt = true) := by
  have hnd := (Config.checkNames_none (Config.check_parts h).2.2.2.2.1).1
  have none_of : ∀ l : List QEvent, (∀ x ∈ l, Spec.qcontact x = none) → l ≠ pre ++ e :: post := by
    intro l hl heq
    have := hl e (by rw [heq]; simp)
    rw [this] at he; cases he
  unfold handleQUIC at ht
  split at ht
  · exact absurd ht (none_of _ (by simp [Spec.qcontact]))
  · rename_i b0 hb0
    obtain ⟨⟨q, hq, hdecl⟩, hmode0⟩ := configForClient_some hb0
    -- the backend behind b0
    have hq0 : q ≠ "" := by rintro rfl; exact hpr hq
    rw [Config.table_proto _ hnd _ _ hq0] at hdecl
    obtain ⟨hlt, hd, _⟩ := List.findIdx?_eq_some_iff_getElem.mp hdecl
    simp only [decide_eq_true_eq] at hd
    have hbe0 : cfg.backends[b0]? = some cfg.backends[b0] := List.getElem?_eq_getElem hlt
    generalize hbe : cfg.backends[b0] = be0 at hbe0 hd
    have hmem0 : be0 ∈ cfg.backends := List.mem_of_getElem? hbe0
    split at ht
    · exact absurd ht (none_of _ (by simp [Spec.qcontact]))
    · rename_i proto cert hs
      have hnp : (w.be b0).nextProtosQUIC = be0.alpnProtos.getD [] := by
        unfold Be.nextProtosQUIC
        rw [hw.protos b0 be0 hbe0, List.filter_eq_self]
        intro p hp
        simp only [hw.mode b0 be0 hbe0, quicOnly, beq_iff_eq, decide_eq_true_eq, not_and]
        rintro rfl hm
        rcases hm with hm | hm
        · exact hraw be0 hmem0 (Or.inr hm) hp
        · exact hraw be0 hmem0 (Or.inl hm) hp
      have hprotoMem : proto ∈ be0.alpnProtos.getD [] ∧ proto ∈ c.client.protos := by
        have hneg : negotiateALPN (be0.alpnProtos.getD []) c.client.protos true = some proto := by
          unfold handshake at hs
          split at hs
          · cases hs
          · rw [hnp] at hs
            split at hs
            · cases hs
            · rename_i p' hp'
              have : p' = proto := by
                split at hs
                · cases hs; rfl
                · split at hs
                  · cases hs
                  · split at hs
                    · cases hs
                    · split at hs
                      · cases hs; rfl
                      · cases hs
              rw [← this]; exact hp'
        unfold negotiateALPN at hneg
        split at hneg
        · rename_i h0
          rcases h0 with h0 | h0
          · rw [h0] at hd; simp at hd
          · rw [h0] at hq; simp at hq
        · split at hneg
          · rename_i r hr
            cases hneg
            refine ⟨List.mem_of_find?_eq_some hr, ?_⟩
            have := List.find?_some hr
            simpa using this
          · rename_i hnf
            have := List.find?_eq_none.mp hnf q hd.2
            simp at this
            exact absurd hq this
      have hp0 : proto ≠ "" := by rintro rfl; exact hne be0 hmem0 hprotoMem.1
      have htab : Config.tableOf cfg.backends c.client.sni proto = some b0 := by
        have := Config.buildTable_proto_some (fun _ _ => none) 0 cfg.backends c.client.sni proto hp0 b0 be0
          hbe0 (by simp [Config.declares, hd.1, hprotoMem.1])
          (fun k b' hk hdk => Config.pairs_unique cfg.backends hnd c.client.sni proto k b0 b' be0 hk hbe0 hdk
            (by simp [Config.declares, hd.1, hprotoMem.1]))
        simpa [Config.tableOf] using this
      split at ht
      · rename_i b' hroute
        have hbb : b' = b0 := by
          rw [hw.route] at hroute
          unfold Config.route at hroute
          simp only [Config.lookupProtos, htab] at hroute
          split at hroute
          · cases hroute
          · cases hroute; rfl
        subst hbb
        have hauth : ∀ acl, (w.be b').clientAuth = some acl → ∃ crt, c.client.cert = some crt ∧
            c.client.chainOK = true ∧ ¬ Spec.revoked w b' crt ∧ authorize acl crt = true := by
          intro acl hacl
          have hs' := hs
          unfold handshake at hs'
          split at hs'
          · cases hs'
          · split at hs'
            · cases hs'
            · rename_i p' hp'
              rw [hacl] at hs'
              simp only at hs'
              split at hs'
              · cases hs'
              · rename_i crt hc
                split at hs'
                · cases hs'
                · rename_i hchain
                  split at hs'
                  · rename_i hv
                    simp only [Option.some.injEq, Prod.mk.injEq] at hs'
                    rw [hs'.1] at hv
                    unfold verifyConnection at hv
                    rw [hroute] at hv
                    simp only [hacl] at hv
                    rw [if_neg (by simp)] at hv
                    refine ⟨crt, hc, by simpa using hchain, ?_, ?_⟩
                    · intro hrev
                      unfold Spec.revoked at hrev
                      cases hm : (w.be b').pkiMap crt.authorityKeyId with
                      | some m => rw [hm] at hrev hv; simp [hrev] at hv
                      | none => rw [hm] at hrev hv; simp [hrev.1, hrev.2] at hv
                    · cases hm : (w.be b').pkiMap crt.authorityKeyId with
                      | some m =>
                        rw [hm] at hv
                        dsimp only at hv
                        split at hv
                        · cases hv
                        · exact hv
                      | none =>
                        rw [hm] at hv
                        dsimp only at hv
                        split at hv
                        · cases hv
                        · exact hv
                  · cases hs'
        simp only at ht
        split at ht
        · exact absurd ht (none_of _ (by simp [Spec.qcontact]))
        · rename_i hopen
          split at ht
          · exact absurd ht (none_of _ (by simp [Spec.qcontact]))
          · rename_i hip
            have fin : ∀ x : QEvent, Spec.qcontact x = some b' →
                [QEvent.ipAllowed b', x, .closed] = pre ++ e :: post →
                ∃ be p, cfg.backends[b]? = some be ∧ c.client.sni ∈ be.serverNames ∧
                  p ∈ be.alpnProtos.getD [] ∧ p ∈ c.client.protos ∧ be.mode ≠ "TLSPASSTHROUGH" ∧
                  (c.numOpen : Int) < w.maxOpen ∧
                  checkIP (w.be b).denyIPs (w.be b).allowIPs c.addr = true ∧ .ipAllowed b ∈ pre ∧
                  (∀ acl, (w.be b).clientAuth = some acl → ∃ crt, c.client.cert = some crt ∧
                    c.client.chainOK = true ∧ ¬ Spec.revoked w b crt ∧ authorize acl crt = true) := by
              intro x hx hl
              have hb : b' = b := by
                have hmem : e ∈ [QEvent.ipAllowed b', x, .closed] := by rw [hl]; simp
                simp only [List.mem_cons, List.not_mem_nil, or_false] at hmem
                rcases hmem with rfl | rfl | rfl
                · simp [Spec.qcontact] at he
                · rw [hx] at he; simpa using he
                · simp [Spec.qcontact] at he
              subst hb
              have hpre : QEvent.ipAllowed b' ∈ pre := by
                cases pre with
                | nil => simp at hl; rw [← hl.1] at he; simp [Spec.qcontact] at he
                | cons y t => simp at hl; simp [hl.1]
              exact ⟨be0, proto, hbe0, hd.1, hprotoMem.1, hprotoMem.2,
                by rw [← hw.mode b' be0 hbe0]; exact hmode0, by omega, by simpa using hip, hpre, hauth⟩
            split at ht
            · exact absurd ht (none_of _ (by simp [Spec.qcontact]))
            · split at ht
              · exact fin _ rfl ht
              · split at ht
                · exact fin _ rfl ht
                · exact fin _ rfl ht
      · exact absurd ht (none_of _ (by simp [Spec.qcontact]))

/-- C12, C85 (the check itself). `VerifyConnection` accepts a handshake exactly when the server
name and negotiated protocol lead to a live backend and, if that backend asks for certificates,
the peer has one that was verified, is not revoked as far as the backend can tell, and is named
by the access list when there is one. A missing certificate is never accepted. -/
theorem verifyConnection_exact (w : World) (sni proto : String) (cert : Option Cert)
    (verified : Bool) :
    verifyConnection w sni proto cert verified = true ↔
      ∃ b, w.route sni [proto] = .to b ∧ ∀ acl, (w.be b).clientAuth = some acl →
        ∃ c, cert = some c ∧ verified = true ∧ ¬ Spec.revoked w b c ∧
          (acl = none ∨ ∃ l, acl = some l ∧ ∃ e ∈ l, Spec.Names c e) := by
  unfold verifyConnection
  cases hr : w.route sni [proto] with
  | to b =>
    simp only [Config.Route.to.injEq, exists_eq_left']
    cases ha : (w.be b).clientAuth with
    | none => simp
    | some acl =>
      simp only [Option.some.injEq, forall_eq']
      cases cert with
      | none => simp
      | some c =>
        simp only [Option.some.injEq, exists_eq_left']
        rw [← acl_exact]
        cases verified with
        | false => simp
        | true =>
          unfold Spec.revoked
          cases hm : (w.be b).pkiMap c.authorityKeyId with
          | some m => cases hi : w.isRevoked m c.serial <;> simp [hi]
          | none => cases h1 : c.hasOCSPServer <;> cases h2 : w.ocspOK c <;> simp [h1, h2]
  | _ => simp

example : verifyConnection Spec.w2 "a" "h3" (some { subject := "CN=x", authorityKeyId := "ca", serial := 12 }) true = true ∧
    verifyConnection Spec.w2 "a" "h3" none true = false := by decide

/-- C85 (how a QUIC connection is served). It is given to a backend's HTTP/3 server only when
that backend has one and the negotiated protocol, hence one the client offered, is `h3`; a
backend's QUIC servers are dialed only in QUIC mode, and otherwise streams are handled one by
one only in other modes. -/
theorem quic_service (w : World) (declared : String → String → Option Nat) (c : QConn) (b : Nat) :
    (.http3 b ∈ handleQUIC w declared c → (w.be b).http3 = true ∧ "h3" ∈ c.client.protos) ∧
    (.dialQUIC b ∈ handleQUIC w declared c → (w.be b).mode = "QUIC") ∧
    (.streams b ∈ handleQUIC w declared c → (w.be b).mode ≠ "QUIC") := by
  unfold handleQUIC
  split
  · simp
  · rename_i b0 hb0
    split
    · simp
    · rename_i proto cert hs
      have hp : proto = "h3" → "h3" ∈ c.client.protos := by
        intro h3
        have hneg : negotiateALPN (w.be b0).nextProtosQUIC c.client.protos true = some proto := by
          unfold handshake at hs
          split at hs
          · cases hs
          · split at hs
            · cases hs
            · rename_i p' hp'
              have : p' = proto := by
                split at hs
                · cases hs; rfl
                · split at hs
                  · cases hs
                  · split at hs
                    · cases hs
                    · split at hs
                      · cases hs; rfl
                      · cases hs
              rw [← this]; exact hp'
        unfold negotiateALPN at hneg
        subst h3
        split at hneg
        · simp at hneg
        · split at hneg
          · rename_i r hr
            cases hneg
            have := List.find?_some hr
            simpa using this
          · split at hneg <;> simp at hneg
      split
      · rename_i b' _
        dsimp only
        split
        · simp
        · split
          · simp
          · split
            · simp
            · split
              · rename_i h
                refine ⟨?_, by simp, by simp⟩
                intro hm
                simp at hm
                subst hm
                exact ⟨h.1, hp h.2⟩
              · split
                · rename_i h
                  refine ⟨by simp, ?_, by simp⟩
                  intro hm; simp at hm; rw [hm]; exact h
                · rename_i h
                  refine ⟨by simp, by simp, ?_⟩
                  intro hm; simp at hm; rw [hm]; exact h
      · simp

/-- An HTTP backend with HTTP/3 for `a`. -/
def Spec.w5 : World where
  route := Config.route (Config.tableOf
    [{ serverNames := ["a"], alpnProtos := some ["h2", "h3"] }]) (fun _ => false)
  be _ := { mode := "HTTP", protos := ["h2", "h3"], http3 := true }
  isRevoked _ _ := false
  ocspOK _ := true
  defaultServerName := "a"
  maxOpen := 5

example : .http3 0 ∈ handleQUIC Spec.w5 (Config.tableOf
    [{ serverNames := ["a"], alpnProtos := some ["h2", "h3"] }])
    { client := { sni := "a", protos := ["h3"] }, numOpen := 1, addr := some [1, 2, 3, 4] } := by
  decide
example : .streams 0 ∈ handleQUIC Spec.w5 (Config.tableOf
    [{ serverNames := ["a"], alpnProtos := some ["h2", "h3"] }])
    { client := { sni := "a", protos := ["h2"] }, numOpen := 1, addr := some [1, 2, 3, 4] } := by
  decide

/-- A connection that its backend's rate limit does not let through gets nothing: no server is dialed for
it and no HTTP server gets it. One that the HTTP server does not take is not served either. -/
theorem limited_not_served (w : World) (c : Conn) (b : Nat) :
    (c.waitOK = false → .dial b ∉ handleConnection w c ∧ .http b ∉ handleConnection w c) ∧
    (c.chanOK = false → .http b ∉ handleConnection w c) := by
  unfold handleConnection dispatch handlePassthrough handleHTTP handleTLS
  constructor
  · intro h
    simp only [h, Bool.false_eq_true, not_false_eq_true, if_true]
    split
    · simp
    · split
      · simp
      · split
        · repeat' split
          all_goals simp
        · simp
  · intro h
    simp only [h, Bool.false_eq_true, not_false_eq_true, if_true, ite_self]
    split
    · simp
    · split
      · simp
      · split
        · repeat' split
          all_goals simp
        · simp

/-- The same for QUIC connections. -/
theorem quic_limited_not_served (w : World) (declared : String → String → Option Nat) (c : QConn) (b : Nat)
    (h : c.waitOK = false) :
    .http3 b ∉ handleQUIC w declared c ∧ .dialQUIC b ∉ handleQUIC w declared c ∧
    .streams b ∉ handleQUIC w declared c := by
  unfold handleQUIC
  simp only [h, Bool.false_eq_true, not_false_eq_true, if_true]
  repeat' split
  all_goals simp

example : handleConnection Spec.w1
    { Spec.tcp 1 "a" ["h2"] (some [1, 2, 3, 4]) (some { subject := "CN=ok" }) with waitOK := false } =
    [.ipAllowed 0, .authorized 0 (some { subject := "CN=ok" }), .closed] := by decide

/-- A connection that is not one too many, whose first message can be read and whose name and protocols
belong to the backend. -/
structure Spec.Arrived (w : World) (c : Conn) (b : Nat) (name sni : String) (protos : List String) : Prop where
  room : (c.numOpen : Int) < w.maxOpen
  hello : c.hello = some (sni, protos)
  named : name = if sni = "" then w.defaultServerName else sni
  backend : w.route name protos = .to b

/-- Let in by the backend: its IP rules, the handshake with what follows it, and its rate limit. The
challenge of a certificate authority is not for the backend. -/
structure Spec.LetIn (w : World) (c : Conn) (b : Nat) (name sni : String) (protos : List String) : Prop where
  ip : checkIP (w.be b).denyIPs (w.be b).allowIPs c.addr = true
  challenge : ¬ (protos = ["acme-tls/1"] ∧ sni ≠ "")
  tls : (authorizeTLS w b name c.client).isSome = true
  rate : c.waitOK = true

/-- Exactly when a connection's backend is dialed: in mode TLSPASSTHROUGH without a handshake, and in
modes TCP, TLS and QUIC after one. -/
theorem dialed_iff (w : World) (c : Conn) (b : Nat) :
    .dial b ∈ handleConnection w c ↔
      ∃ name sni protos, Spec.Arrived w c b name sni protos ∧
        (((w.be b).mode = "TLSPASSTHROUGH" ∧ checkIP (w.be b).denyIPs (w.be b).allowIPs c.addr = true ∧ c.waitOK = true) ∨
         (((w.be b).mode = "TCP" ∨ (w.be b).mode = "TLS" ∨ (w.be b).mode = "QUIC") ∧
            Spec.LetIn w c b name sni protos)) := by
  constructor
  · intro h
    unfold handleConnection at h
    split at h
    · simp at h
    · rename_i hroom
      split at h
      · simp at h
      · rename_i sni protos hh
        dsimp only at h
        split at h
        · rename_i b' hr
          have key : ∀ x, Event.dial b ∈ dispatch w x (if sni = "" then w.defaultServerName else sni) sni protos c →
              x = b := by
            intro x hx
            unfold dispatch handlePassthrough handleHTTP handleTLS at hx
            dsimp only at hx
            repeat' split at hx
            all_goals simp at hx
            all_goals exact hx.symm
          obtain rfl := key _ h
          refine ⟨_, sni, protos, ⟨by omega, hh, rfl, hr⟩, ?_⟩
          unfold dispatch at h
          dsimp only at h
          split at h
          · rename_i hm
            split at h
            · simp at h
            · rename_i hip
              refine .inl ⟨hm, by simpa using hip, ?_⟩
              unfold handlePassthrough at h
              split at h
              · simp at h
              · rename_i hw; simpa using hw
          · split at h
            · simp at h
            · rename_i hch
              split at h
              · split at h
                · simp at h
                · unfold handleHTTP at h
                  repeat' split at h
                  all_goals simp at h
              · split at h
                · rename_i hm
                  split at h
                  · simp at h
                  · rename_i hip
                    unfold handleTLS at h
                    split at h
                    · simp at h
                    · rename_i hc
                      split at h
                      · simp at h
                      · rename_i hw
                        exact .inr ⟨hm, by simpa using hip, hch, by rw [hc]; rfl, by simpa using hw⟩
                · simp at h
        · simp at h
  · rintro ⟨name, sni, protos, ⟨hroom, hh, rfl, hr⟩, h⟩
    unfold handleConnection
    rw [if_neg (by omega), hh]
    dsimp only
    rw [hr]
    dsimp only
    unfold dispatch
    dsimp only
    rcases h with ⟨hm, hip, hw⟩ | ⟨hm, hl⟩
    · rw [if_pos hm, if_neg (by simp [hip])]
      unfold handlePassthrough
      rw [if_neg (by simp [hw])]
      split <;> simp
    · have h1 : (w.be b).mode ≠ "TLSPASSTHROUGH" := by rcases hm with h | h | h <;> rw [h] <;> decide
      have h2 : ¬ ((w.be b).mode = "CONSOLE" ∨ (w.be b).mode = "LOCAL" ∨ (w.be b).mode = "HTTP" ∨
          (w.be b).mode = "HTTPS") := by rcases hm with h | h | h <;> rw [h] <;> decide
      rw [if_neg h1, if_neg hl.challenge, if_neg h2, if_pos hm, if_neg (by simp [hl.ip])]
      unfold handleTLS
      obtain ⟨crt, hc⟩ := Option.isSome_iff_exists.mp hl.tls
      rw [hc]
      dsimp only
      rw [if_neg (by simp [hl.rate])]
      split <;> simp

/-- Exactly when a connection is given to a backend's HTTP server. -/
theorem http_iff (w : World) (c : Conn) (b : Nat) :
    .http b ∈ handleConnection w c ↔
      ∃ name sni protos, Spec.Arrived w c b name sni protos ∧ Spec.LetIn w c b name sni protos ∧ c.chanOK = true ∧
        ((w.be b).mode = "CONSOLE" ∨ (w.be b).mode = "LOCAL" ∨ (w.be b).mode = "HTTP" ∨ (w.be b).mode = "HTTPS") := by
  constructor
  · intro h
    unfold handleConnection at h
    split at h
    · simp at h
    · rename_i hroom
      split at h
      · simp at h
      · rename_i sni protos hh
        dsimp only at h
        split at h
        · rename_i b' hr
          have key : ∀ x, Event.http b ∈ dispatch w x (if sni = "" then w.defaultServerName else sni) sni protos c →
              x = b := by
            intro x hx
            unfold dispatch handlePassthrough handleHTTP handleTLS at hx
            dsimp only at hx
            repeat' split at hx
            all_goals simp at hx
            all_goals exact hx.symm
          obtain rfl := key _ h
          refine ⟨_, sni, protos, ⟨by omega, hh, rfl, hr⟩, ?_⟩
          unfold dispatch at h
          dsimp only at h
          split at h
          · unfold handlePassthrough at h
            repeat' split at h
            all_goals simp at h
          · split at h
            · simp at h
            · rename_i hch
              split at h
              · rename_i hm
                split at h
                · simp at h
                · rename_i hip
                  unfold handleHTTP at h
                  split at h
                  · simp at h
                  · rename_i hc
                    split at h
                    · simp at h
                    · rename_i hw
                      split at h
                      · simp at h
                      · rename_i hq
                        exact ⟨⟨by simpa using hip, hch, by rw [hc]; rfl, by simpa using hw⟩, by simpa using hq, hm⟩
              · unfold handleTLS at h
                repeat' split at h
                all_goals simp at h
        · simp at h
  · rintro ⟨name, sni, protos, ⟨hroom, hh, rfl, hr⟩, hl, hq, hm⟩
    unfold handleConnection
    rw [if_neg (by omega), hh]
    dsimp only
    rw [hr]
    dsimp only
    unfold dispatch
    dsimp only
    have h1 : (w.be b).mode ≠ "TLSPASSTHROUGH" := by rcases hm with h | h | h | h <;> rw [h] <;> decide
    rw [if_neg h1, if_neg hl.challenge, if_pos hm, if_neg (by simp [hl.ip])]
    unfold handleHTTP
    obtain ⟨crt, hc⟩ := Option.isSome_iff_exists.mp hl.tls
    rw [hc]
    dsimp only
    rw [if_neg (by simp [hl.rate]), if_neg (by simp [hq])]
    simp

/-- A client whose connection cannot be passed through is told so: exactly when the rate limit or the
server fails for a backend in mode TLSPASSTHROUGH. -/
theorem passthrough_failure_iff (w : World) (c : Conn) :
    .alertInternalError ∈ handleConnection w c ↔
      ∃ b name sni protos, Spec.Arrived w c b name sni protos ∧ (w.be b).mode = "TLSPASSTHROUGH" ∧
        checkIP (w.be b).denyIPs (w.be b).allowIPs c.addr = true ∧ (c.waitOK = false ∨ c.dialOK = false) := by
  constructor
  · intro h
    unfold handleConnection at h
    split at h
    · simp at h
    · rename_i hroom
      split at h
      · simp at h
      · rename_i sni protos hh
        dsimp only at h
        split at h
        · rename_i b hr
          refine ⟨b, _, sni, protos, ⟨by omega, hh, rfl, hr⟩, ?_⟩
          unfold dispatch at h
          dsimp only at h
          split at h
          · rename_i hm
            split at h
            · simp at h
            · rename_i hip
              refine ⟨hm, by simpa using hip, ?_⟩
              unfold handlePassthrough at h
              split at h
              · rename_i hw; exact .inl (by simpa using hw)
              · split at h
                · rename_i hd; exact .inr (by simpa using hd)
                · simp at h
          · unfold handleHTTP handleTLS at h
            repeat' split at h
            all_goals simp at h
        · simp at h
  · rintro ⟨b, name, sni, protos, ⟨hroom, hh, rfl, hr⟩, hm, hip, h⟩
    unfold handleConnection
    rw [if_neg (by omega), hh]
    dsimp only
    rw [hr]
    dsimp only
    unfold dispatch handlePassthrough
    dsimp only
    rw [if_pos hm, if_neg (by simp [hip])]
    split
    · simp
    · rename_i hw
      rcases h with h | h
      · exact absurd h (by simpa using hw)
      · rw [if_pos (by simp [h])]; simp

/-- A backend that is passed through, one with TLS servers and one with HTTP servers, by name. -/
def Spec.w6 : World where
  route n _ := if n = "a" then .to 0 else if n = "b" then .to 1 else if n = "c" then .to 2 else .unexpectedSNI
  be i := if i = 0 then { mode := "TLSPASSTHROUGH" } else if i = 1 then { mode := "TLS" } else { mode := "HTTPS" }
  isRevoked _ _ := false
  ocspOK _ := true
  defaultServerName := "a"
  maxOpen := 5

example : .dial 0 ∈ handleConnection Spec.w6 (Spec.tcp 1 "a" ["h2"] (some [1, 2, 3, 4]) none) ∧
    .alertInternalError ∈ handleConnection Spec.w6
      { Spec.tcp 1 "a" ["h2"] (some [1, 2, 3, 4]) none with dialOK := false } ∧
    .dial 1 ∈ handleConnection Spec.w6 (Spec.tcp 1 "b" [] (some [1, 2, 3, 4]) none) ∧
    .http 2 ∈ handleConnection Spec.w6 (Spec.tcp 1 "c" [] (some [1, 2, 3, 4]) none) := by
  decide

end Verif.Dispatch
