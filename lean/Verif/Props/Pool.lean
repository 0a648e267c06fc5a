import Verif.Model.Pool
import Verif.Props.Headers
import Verif.Props.Dial
/-
C111: requests are sent over connections that were made for them. C112: the protocol.
-/
namespace Verif.Pool

open Verif.Path (Str)
open Verif.Dial (Bytes Header Client Dest D Net headerFor turn destOf slotOf)

/-! ## Specification -/

/-- Where a request belongs, by its path: addresses, mode and PROXY protocol version of the first path
override that applies, or of the backend if none does. -/
def Spec.Home (cf : Conf) (path : Str) (addresses : List String) (mode : String) (version : Nat) : Prop :=
  (∃ i o, Http.Spec.First cf.be.overrides (Verif.Path.Spec.clean path) i o ∧ addresses = o.addresses ∧
    mode = cf.overrideModes.getD i "HTTPS" ∧ version = o.proxyVersion) ∨
  (Http.Spec.NoneApplies cf.be.overrides (Verif.Path.Spec.clean path) ∧ addresses = cf.be.addresses ∧
    mode = cf.mode ∧ version = cf.be.proxyVersion)

/-- The PROXY header that announces a client, if the version is not 0. -/
def Spec.header (enc : Header → Bytes) (version : Nat) (c : Client) : Bytes :=
  if version = 0 then []
  else enc { version := version, src := c.remote, dst := c.local_,
             tlvs := (if c.serverName = "" then [] else [(2, c.serverName)]) ++
               (if c.proto = "" then [] else [(1, c.proto)]) }

/-- The requests that occur in a sequence of operations. -/
def Spec.Occurs (q : Request) (ops : List Op) : Prop := .start q ∈ ops ∨ ∃ i, .send q i ∈ ops

/-! ## Proof -/

theorem toNat_ofNat {n : Nat} (h : n.isValidChar) : (Char.ofNat n).toNat = n := by
  unfold Char.ofNat
  rw [dif_pos h]
  rfl

theorem text_inj {a b : Bytes} (h : text a = text b) : a = b := by
  unfold text at h
  refine List.map_inj_right ?_ |>.mp h
  intro x y hxy
  have hx : x.toNat.isValidChar := Or.inl (by have := x.toNat_lt; omega)
  have hy : y.toNat.isValidChar := Or.inl (by have := y.toNat_lt; omega)
  have := congrArg Char.toNat hxy
  rw [toNat_ofNat hx, toNat_ofNat hy] at this
  exact UInt8.toNat_inj.mp this

theorem target_some {enc : Header → Bytes} {cf : Conf} {q : Request} {ov : Option Nat} {k : Str}
    (h : q.target enc cf = some (ov, k)) :
    ∃ p hs ck, Http.serve (q.context enc cf) cf.be q.req = .forward p hs ck ov k := by
  unfold Request.target at h
  split at h
  · rename_i p hs ck ov' k' he
    cases h
    exact ⟨p, hs, ck, he⟩
  · cases h

/-- What is dialled for a request is where it belongs. -/
theorem target_home {enc : Header → Bytes} {cf : Conf} {q : Request} {ov : Option Nat} {k : Str}
    (h : q.target enc cf = some (ov, k)) :
    slotOf cf.dial { q.client with overrideId := ov.map Int.ofNat } = ov ∧
    Spec.Home cf q.req.path (destOf cf.dial ov).addresses (destOf cf.dial ov).mode (destOf cf.dial ov).ppVersion ∧
    (destOf cf.dial ov).ppVersion = Http.Spec.proxyVersion cf.be ov := by
  obtain ⟨p, hs, ck, he⟩ := target_some h
  rcases Http.override_forward _ _ _ _ _ _ _ _ he with ⟨i, o, rfl, hf, ho⟩ | ⟨rfl, hn, ha⟩
  · have hi : i < cf.be.overrides.length := (List.getElem?_eq_some_iff.mp hf.1).1
    have hd : cf.dial.overrides[i]? = some
        { addresses := o.addresses, mode := cf.overrideModes.getD i "HTTPS", ppVersion := o.proxyVersion } := by
      simp [Conf.dial, List.getElem?_mapIdx, hf.1]
    refine ⟨?_, ?_, ?_⟩
    · have : i < cf.dial.overrides.length := by simpa [Conf.dial] using hi
      simp [slotOf, this]
    · simp only [destOf, hd, Option.getD_some]
      exact .inl ⟨i, o, hf, rfl, rfl, rfl⟩
    · simp [destOf, hd, Http.Spec.proxyVersion, hf.1]
  · exact ⟨rfl, .inr ⟨hn, rfl, rfl, rfl⟩, rfl⟩

theorem home_unique {cf : Conf} {path : Str} {a a' : List String} {m m' : String} {v v' : Nat}
    (h : Spec.Home cf path a m v) (h' : Spec.Home cf path a' m' v') : a = a' ∧ m = m' ∧ v = v' := by
  have first : ∀ {i j : Nat} {o o' : Http.Override}, Http.Spec.First cf.be.overrides (Verif.Path.Spec.clean path) i o →
      Http.Spec.First cf.be.overrides (Verif.Path.Spec.clean path) j o' → i = j ∧ o = o' := by
    intro i j o o' h h'
    have hij : i = j := by
      rcases Nat.lt_trichotomy i j with hlt | he | hlt
      · exact absurd h.2.1 (h'.2.2 i o hlt h.1)
      · exact he
      · exact absurd h'.2.1 (h.2.2 j o' hlt h'.1)
    subst hij
    have := h.1.symm.trans h'.1
    exact ⟨rfl, by simpa using this⟩
  rcases h with ⟨i, o, hf, rfl, rfl, rfl⟩ | ⟨hn, rfl, rfl, rfl⟩ <;>
    rcases h' with ⟨j, o', hf', rfl, rfl, rfl⟩ | ⟨hn', rfl, rfl, rfl⟩
  · obtain ⟨rfl, rfl⟩ := first hf hf'
    exact ⟨rfl, rfl, rfl⟩
  · exact absurd hf.2.1 (hn' o (List.mem_of_getElem? hf.1))
  · exact absurd hf'.2.1 (hn o' (List.mem_of_getElem? hf'.1))
  · exact ⟨rfl, rfl, rfl⟩

/-- One backend for the dialling lemmas. -/
def single (d : Dest) : Dial.Backend := { main := d }

theorem destOf_single (d : Dest) (slot : Option Nat) : destOf (single d) slot = d := by
  cases slot <;> simp [single, destOf]

/-- What is known of a dial and its connection. -/
def ConnOK (enc : Header → Bytes) (cf : Conf) (ops : List Op) (c : Conn) : Prop :=
  ∃ q ov, Spec.Occurs q ops ∧ q.target enc cf = some (ov, c.key) ∧ c.transport = transport cf q ov ∧
    c.dial.client = { q.client with overrideId := ov.map Int.ofNat } ∧ c.dial.slot = ov ∧
    Dial.OutsOK enc (single (destFor cf c.transport ov)) c.dial [] ∧
    ∀ o ∈ c.dial.outs, o.addr < (destFor cf c.transport ov).addresses.length

theorem turn_addr (enc : Header → Bytes) (d : Dest) (next : Nat) (x : D) (net : Net)
    (h : ∀ o ∈ x.outs, o.addr < d.addresses.length) :
    ∀ o ∈ (turn enc d next x net).2.outs, o.addr < d.addresses.length := by
  unfold turn Dial.failed
  dsimp only
  generalize (if x.max = 0 then d.addresses.length else x.max) = m
  split
  · exact h
  · rename_i hn
    have hn : next < d.addresses.length := Nat.lt_of_not_le hn
    split
    · split <;> exact h
    · split
      · intro o ho
        rcases List.mem_cons.mp ho with rfl | ho
        · exact hn
        · exact h o ho
      · split
        · intro o ho
          rcases List.mem_cons.mp ho with rfl | ho
          · exact hn
          · exact h o ho
        · split
          all_goals
            intro o ho
            rcases List.mem_cons.mp ho with rfl | ho
            · exact hn
            · exact h o ho

theorem turn_conn (enc : Header → Bytes) {cf : Conf} {ops : List Op} {c : Conn} (next : Nat) (net : Net)
    (hr : c.dial.result = none) (h : ConnOK enc cf ops c) :
    ConnOK enc cf ops { c with dial := (turn enc (destFor cf c.transport c.dial.slot) next c.dial net).2 } := by
  obtain ⟨q, ov, h1, h2, h3, h4, h5, h6, h7⟩ := h
  obtain ⟨e1, e2⟩ := Dial.turn_same enc (destFor cf c.transport c.dial.slot) next c.dial net
  refine ⟨q, ov, h1, h2, h3, e2.trans h4, e1.trans h5, ?_, ?_⟩
  · have := Dial.turn_outs enc (single (destFor cf c.transport ov)) next c.dial net hr h6
    rw [destOf_single] at this
    rw [h5]
    exact this
  · rw [h5]
    exact turn_addr enc _ next c.dial net h7

def Inv (enc : Header → Bytes) (cf : Conf) (ops : List Op) (s : St) : Prop :=
  (∀ c ∈ s.conns, ConnOK enc cf ops c) ∧
  ∀ e ∈ s.log, Spec.Occurs e.1 ops ∧ ∃ ov k c, e.1.target enc cf = some (ov, k) ∧ s.conns[e.2]? = some c ∧
    c.dial.result = some .ok ∧ c.transport = transport cf e.1 ov ∧ c.key = k

theorem occurs_mono {q : Request} {ops : List Op} (op : Op) (h : Spec.Occurs q ops) : Spec.Occurs q (ops ++ [op]) := by
  rcases h with h | ⟨i, h⟩
  · exact .inl (List.mem_append_left _ h)
  · exact .inr ⟨i, List.mem_append_left _ h⟩

theorem inv_mono {enc : Header → Bytes} {cf : Conf} {ops : List Op} {s : St} (op : Op) (h : Inv enc cf ops s) :
    Inv enc cf (ops ++ [op]) s := by
  refine ⟨?_, ?_⟩
  · intro c hc
    obtain ⟨q, ov, h1, h2⟩ := h.1 c hc
    exact ⟨q, ov, occurs_mono op h1, h2⟩
  · intro e he
    exact ⟨occurs_mono op (h.2 e he).1, (h.2 e he).2⟩

theorem inv_step (enc : Header → Bytes) {cf : Conf} {ops : List Op} {s : St} (h : Inv enc cf ops s) (op : Op) :
    Inv enc cf (ops ++ [op]) (s.step enc cf op) := by
  have hm := inv_mono op h
  cases op with
  | start q =>
    unfold St.step
    dsimp only
    split
    · exact hm
    · rename_i ov k ht
      obtain ⟨hs, -, -⟩ := target_home ht
      refine ⟨?_, ?_⟩
      · intro c hc
        rcases List.mem_append.mp hc with hc | hc
        · exact hm.1 c hc
        · rw [List.mem_singleton] at hc
          subst hc
          refine ⟨q, ov, .inl (by simp), ht, rfl, rfl, hs, ?_, by simp⟩
          unfold Dial.OutsOK
          rw [if_neg (by dsimp only; split <;> simp)]
          simp
      · intro e he
        obtain ⟨h1, ov', k', c, h2, h3, h4⟩ := hm.2 e he
        exact ⟨h1, ov', k', c, h2, by rw [List.getElem?_append_left (List.getElem?_eq_some_iff.mp h3).1]; exact h3, h4⟩
  | attempt i net =>
    unfold St.step
    dsimp only
    split
    · exact hm
    · rename_i c hc
      unfold attempt
      split
      · exact hm
      · rename_i hr
        have hr : c.dial.result = none := by
          cases hx : c.dial.result with
          | none => rfl
          | some r => rw [hx] at hr; simp at hr
        refine ⟨?_, ?_⟩
        · intro c' hc'
          rcases List.mem_or_eq_of_mem_set hc' with hc' | rfl
          · exact hm.1 c' hc'
          · exact turn_conn enc _ net hr (hm.1 c (List.mem_of_getElem? hc))
        · intro e he
          obtain ⟨h1, ov', k', c', h2, h3, h4, h5⟩ := hm.2 e he
          refine ⟨h1, ov', k', c', h2, ?_, h4, h5⟩
          have hne : i ≠ e.2 := by
            rintro rfl
            rw [hc] at h3
            cases h3
            rw [hr] at h4
            cases h4
          rw [List.getElem?_set_ne hne]
          exact h3
  | send q i =>
    unfold St.step
    dsimp only
    split
    · exact hm
    · rename_i ov k ht
      split
      · exact hm
      · rename_i c hc
        split
        · rename_i hu
          simp only [usable, Bool.and_eq_true, beq_iff_eq] at hu
          refine ⟨hm.1, ?_⟩
          intro e he
          rcases List.mem_cons.mp he with rfl | he
          · exact ⟨.inr ⟨i, by simp⟩, ov, k, c, ht, hc, hu.1.1, hu.1.2, hu.2⟩
          · exact hm.2 e he
        · exact hm

theorem inv_run (enc : Header → Bytes) (cf : Conf) (ops : List Op) : Inv enc cf ops (({} : St).run enc cf ops) := by
  have key : ∀ (ops pre : List Op) (s : St), Inv enc cf pre s → Inv enc cf (pre ++ ops) (s.run enc cf ops) := by
    intro ops
    induction ops with
    | nil => intro pre s h; simpa [St.run] using h
    | cons op ops ih =>
      intro pre s h
      have := ih (pre ++ [op]) _ (inv_step enc h op)
      simpa [St.run] using this
  exact key ops [] {} ⟨by simp, by simp⟩

/-- C111, in part. However requests, dials and reuse of connections interleave: a request is only ever sent
over an open connection to one of the addresses of the path override that applies to its path (of the
backend, if none does), which was dialled for a client that asked for the same server name, so that the
certificate presented is the same, and on which the server has received the PROXY header that announces the
client of this very request, and nothing else, before the first request. What is missing: over HTTP/3 and in
QUIC mode no PROXY header is sent (`header_missing_violated`). Collisions of SHA-256 and server names with
';' are excluded. -/
theorem own_connection_partial (enc : Header → Bytes) (cf : Conf) (hinj : ∀ x y, cf.hash x = cf.hash y → x = y)
    (ops : List Op) (hops : ∀ q, Spec.Occurs q ops → ';' ∉ q.client.serverName.toList)
    (q : Request) (i : Nat) (h : (q, i) ∈ (({} : St).run enc cf ops).log) :
    ∃ c o os addresses mode version, (({} : St).run enc cf ops).conns[i]? = some c ∧ c.dial.outs = o :: os ∧
      o.closed = false ∧ c.dial.client.serverName = q.client.serverName ∧
      Spec.Home cf q.req.path addresses mode version ∧ o.addr < addresses.length ∧
      (c.transport ≠ .h3 → mode ≠ "QUIC" → o.written = Spec.header enc version q.client) := by
  have hI := inv_run enc cf ops
  obtain ⟨hoc, ov, k, c, ht, hc, hok, htr, hk⟩ := hI.2 (q, i) h
  obtain ⟨q', ov', hoc', ht', htr', hcl, hslot, houts, haddr⟩ := hI.1 c (List.mem_of_getElem? hc)
  dsimp only at hoc ht hc htr
  rw [hk] at ht'
  obtain ⟨p, hs, ck, he⟩ := target_some ht
  obtain ⟨p', hs', ck', he'⟩ := target_some ht'
  obtain ⟨hsn, hov, hhdr⟩ := Http.pool_not_shared (q.context enc cf) (q'.context enc cf) cf.be q.req q'.req
    p p' hs hs' ck ck' ov ov' k rfl hinj (hops q hoc) (hops q' hoc') he he'
  subst hov
  unfold Dial.OutsOK at houts
  rw [if_pos hok, destOf_single] at houts
  obtain ⟨o, os, ho, hcl', hw, -⟩ := houts
  obtain ⟨-, hhome, hver⟩ := target_home ht
  have hda : (destFor cf c.transport ov).addresses = (destOf cf.dial ov).addresses := by
    unfold destFor; dsimp only; split <;> rfl
  have hoa := haddr o (by rw [ho]; simp)
  rw [hda] at hoa
  refine ⟨c, o, os, _, _, _, hc, ho, hcl', ?_, hhome, hoa, ?_⟩
  · rw [hcl]
    exact hsn.symm
  · intro h3 hq
    have hd : destFor cf c.transport ov = destOf cf.dial ov := by
      unfold destFor; dsimp only; rw [if_neg h3]
    rw [hd, List.append_nil] at hw
    rw [hw]
    unfold Spec.header
    by_cases hv : (destOf cf.dial ov).ppVersion = 0
    · rw [if_pos hv]
      unfold Dial.Spec.header
      rw [if_neg (by simp [hv])]
    · rw [if_neg hv, ← Dial.headerFor_spec enc _ _ (by simp [hq, hv])]
      rw [← hver] at hhdr
      have := text_inj (hhdr (Nat.pos_of_ne_zero hv))
      rw [hcl]
      have hf : ∀ (v : Nat) (c : Client), headerFor v c =
          { version := v, src := c.remote, dst := c.local_,
            tlvs := (if c.serverName = "" then [] else [(2, c.serverName)]) ++
               (if c.proto = "" then [] else [(1, c.proto)]) } := by
        intro v c
        unfold headerFor
        by_cases h1 : c.serverName = "" <;> by_cases h2 : c.proto = "" <;> simp [h1, h2]
      rw [← hf, this]
      rfl

/-! ## The protocol -/

/-- The protocol configured for a path: that of the first path override that applies, or else that of the
backend, or else HTTP/1.1. -/
inductive Spec.Configured (cf : Conf) (path : Str) : String → Prop
  | override {i o p} : Http.Spec.First cf.be.overrides (Verif.Path.Spec.clean path) i o →
      cf.overrideProtos[i]? = some (some p) → Spec.Configured cf path p
  | backend {p} : (∀ i o p', Http.Spec.First cf.be.overrides (Verif.Path.Spec.clean path) i o →
      cf.overrideProtos[i]? ≠ some (some p')) → cf.proto = some p → Spec.Configured cf path p
  | default : (∀ i o p', Http.Spec.First cf.be.overrides (Verif.Path.Spec.clean path) i o →
      cf.overrideProtos[i]? ≠ some (some p')) → cf.proto = none → Spec.Configured cf path "http/1.1"

/-- The client asks for the connection to become something else, e.g. a websocket. -/
def Spec.Upgrade (q : Request) : Prop := q.major = 1 ∧ q.connection.toLower = "upgrade"

/-- The client of the library that speaks a protocol. -/
def Spec.speaks (quic : Bool) (p : String) : Transport :=
  if p = "h2" then .h2 else if p = "h3" then if quic then .h3 else .h1 else .h1

theorem protoName_configured {enc : Header → Bytes} {cf : Conf} {q : Request} {ov : Option Nat} {k : Str}
    (h : q.target enc cf = some (ov, k)) (tls : Option String) :
    ∃ p, Spec.Configured cf q.req.path p ∧ protoName cf ov tls = if p = "" then tls.getD "" else p := by
  have fin : ∀ p : String, (if p = "" then match tls with | some n => n | none => p else p) =
      if p = "" then tls.getD "" else p := by
    intro p
    split
    · rename_i hp; cases tls <;> simp [hp]
    · rfl
  obtain ⟨p, hs, ck, he⟩ := target_some h
  have hfirst := Http.override_forward _ _ _ _ _ _ _ _ he
  unfold protoName
  dsimp only
  cases hp : ov.bind fun i => cf.overrideProtos.getD i none with
  | some p =>
    refine ⟨p, ?_, fin p⟩
    rcases hfirst with ⟨i, o, rfl, hf, ho⟩ | ⟨rfl, hn, ha⟩
    · simp only [Option.bind_some, List.getD_eq_getElem?_getD] at hp
      refine .override hf ?_
      cases hx : cf.overrideProtos[i]? with
      | none => rw [hx] at hp; cases hp
      | some y => rw [hx] at hp; simpa using hp
    · cases hp
  | none =>
    have hno : ∀ i o p', Http.Spec.First cf.be.overrides (Verif.Path.Spec.clean q.req.path) i o →
        cf.overrideProtos[i]? ≠ some (some p') := by
      intro i o p' hf hx
      rcases hfirst with ⟨j, o', rfl, hf', ho⟩ | ⟨rfl, hn, ha⟩
      · have hij : i = j := by
          rcases Nat.lt_trichotomy i j with hlt | he | hlt
          · exact absurd hf.2.1 (hf'.2.2 i o hlt hf.1)
          · exact he
          · exact absurd hf'.2.1 (hf.2.2 j o' hlt hf'.1)
        subst hij
        simp [List.getD_eq_getElem?_getD, hx] at hp
      · exact hn o (List.mem_of_getElem? hf.1) hf.2.1
    cases hpr : cf.proto with
    | none => exact ⟨_, .default hno hpr, fin _⟩
    | some p => exact ⟨_, .backend hno hpr, fin _⟩

/-- C112. Every request is sent over a connection of the protocol configured for its path, or if that is "",
of the protocol the client uses itself, and the same protocol was offered to the server when it was
connected; a request to upgrade the connection is sent over HTTP/1. A protocol that is not known, and h3
without QUIC, means HTTP/1. -/
theorem protocol_configured (enc : Header → Bytes) (cf : Conf) (ops : List Op) (q : Request) (i : Nat)
    (h : (q, i) ∈ (({} : St).run enc cf ops).log) :
    ∃ c p, (({} : St).run enc cf ops).conns[i]? = some c ∧ Spec.Configured cf q.req.path p ∧
      (Spec.Upgrade q → c.transport = .h1) ∧
      (¬ Spec.Upgrade q → p ≠ "" → c.transport = Spec.speaks cf.quic p) ∧
      (¬ Spec.Upgrade q → p = "" → c.transport = Spec.speaks cf.quic (q.tls.getD "")) ∧
      (∀ n, n ∈ offered c.transport → c.transport = Spec.speaks true n) ∧
      (c.transport ≠ .h1 → ∃ n, offered c.transport = [n] ∧ c.transport = Spec.speaks true n) := by
  obtain ⟨-, ov, k, c, ht, hc, -, htr, -⟩ := (inv_run enc cf ops).2 (q, i) h
  dsimp only at ht hc htr
  obtain ⟨p, hp, hn⟩ := protoName_configured ht q.tls
  have hsp : ∀ n : String, (if n = "h3" ∧ cf.quic = true then Transport.h3 else if n = "h2" then .h2 else .h1) =
      Spec.speaks cf.quic n := by
    intro n
    unfold Spec.speaks
    by_cases h2 : n = "h2"
    · simp [h2]
    · by_cases h3 : n = "h3"
      · cases cf.quic <;> simp [h3]
      · simp [h2, h3]
  refine ⟨c, p, hc, hp, ?_, ?_, ?_, ?_, ?_⟩
  · intro hu
    unfold Spec.Upgrade at hu
    rw [htr]; unfold transport; rw [if_pos hu]
  · intro hu hne
    unfold Spec.Upgrade at hu
    rw [htr]; unfold transport; rw [if_neg hu, ← hsp]
    rw [if_neg hne] at hn
    simp only [hn]
  · intro hu he
    unfold Spec.Upgrade at hu
    rw [htr]; unfold transport; rw [if_neg hu, ← hsp]
    rw [if_pos he] at hn
    simp only [hn]
  · intro n hn
    cases hx : c.transport <;> rw [hx] at hn <;> simp [offered] at hn <;> subst hn <;> rfl
  · intro hne
    cases hx : c.transport
    · exact absurd hx hne
    · exact ⟨"h2", rfl, rfl⟩
    · exact ⟨"h3", rfl, rfl⟩

/-! ## Examples -/

/-- An encoding of headers for examples: version, number of records and length of the client's address. -/
def Spec.enc : Header → Bytes := fun h => [UInt8.ofNat h.version, UInt8.ofNat h.tlvs.length, UInt8.ofNat h.src.length]

/-- A backend with a path override, both with PROXY headers. -/
def Spec.conf (proto : Option String) : Conf where
  be := { serverNames := ["a"], addresses := ["10.0.0.1:443"], proxyVersion := 2,
          overrides := [{ paths := ["/x/".toList], addresses := ["10.0.0.2:443", "10.0.0.3:443"], proxyVersion := 1 }] }
  proto := proto
  overrideModes := ["HTTPS"]
  overrideProtos := [none]

def Spec.request (remote path : String) : Request where
  client := { remote := remote, serverName := "a" }
  ctx := {}
  req := { host := "a", path := path.toList }

/-- A history for the examples. -/
def Spec.history : List Op :=
  [.start (Spec.request "1.1.1.1" "/x/y"), .attempt 0 .refused, .attempt 0 (.connected none),
   .send (Spec.request "1.1.1.1" "/x/y") 0, .send (Spec.request "1.1.1.1" "/x/z") 0,
   .send (Spec.request "1.1.1.22" "/x/z") 0, .send (Spec.request "1.1.1.1" "/y") 0,
   .start (Spec.request "1.1.1.22" "/y"), .attempt 1 (.connected none), .send (Spec.request "1.1.1.22" "/") 1]

/-- Non-vacuity: the second request of a client is sent over the connection of the first one; those of
another client and for another path are not; the headers differ. -/
example : ((({} : St).run Spec.enc (Spec.conf (some "h2")) Spec.history).log.map fun e => (e.1.client.remote, e.1.req.path, e.2)) =
      [("1.1.1.22", "/".toList, 1), ("1.1.1.1", "/x/z".toList, 0), ("1.1.1.1", "/x/y".toList, 0)] ∧
    ((({} : St).run Spec.enc (Spec.conf (some "h2")) Spec.history).conns.map fun c => (c.transport, c.dial.outs)) =
      [(.h2, [{ addr := 1, written := [1, 1, 7] }]), (.h2, [{ addr := 0, written := [2, 1, 8] }])] ∧
    (∀ x y : Str, (Spec.conf (some "h2")).hash x = (Spec.conf (some "h2")).hash y → x = y) := by
  refine ⟨by decide +kernel, by decide +kernel, fun _ _ h => h⟩

example : Spec.Upgrade { Spec.request "1.1.1.1" "/" with connection := "Upgrade" } := ⟨rfl, by decide +kernel⟩

/-- C111 fails for HTTP/3: the request is sent although the server was told nothing of its client. -/
theorem header_missing_violated : ∃ (cf : Conf) (ops : List Op) (q : Request) (c : Conn) (o : Dial.Out)
    (version : Nat), (∀ q, Spec.Occurs q ops → ';' ∉ q.client.serverName.toList) ∧
    (∀ x y, cf.hash x = cf.hash y → x = y) ∧
    (q, 0) ∈ (({} : St).run Spec.enc cf ops).log ∧ (({} : St).run Spec.enc cf ops).conns[0]? = some c ∧
    c.dial.outs = [o] ∧ Spec.Home cf q.req.path cf.be.addresses "HTTPS" version ∧
    o.written ≠ Spec.header Spec.enc version q.client := by
  refine ⟨Spec.conf (some "h3"), [.start (Spec.request "1.1.1.1" "/"), .attempt 0 (.connected none),
    .send (Spec.request "1.1.1.1" "/") 0], Spec.request "1.1.1.1" "/",
    { transport := .h3, key := "a;;".toList ++ [Char.ofNat 2, Char.ofNat 1, Char.ofNat 7],
      dial := { client := { overrideId := none, remote := "1.1.1.1", serverName := "a" }, slot := none, max := 1,
                tried := [0], outs := [{ addr := 0 }], result := some .ok } },
    { addr := 0 }, 2, ?_, fun _ _ h => h, ?_, ?_, rfl, ?_, ?_⟩
  · rintro q (h | ⟨i, h⟩)
    · simp at h; subst h; decide
    · simp at h; rw [h.1]; decide
  · have hlog : ((({} : St).run Spec.enc (Spec.conf (some "h3"))
        [.start (Spec.request "1.1.1.1" "/"), .attempt 0 (.connected none),
          .send (Spec.request "1.1.1.1" "/") 0]).log) = [(Spec.request "1.1.1.1" "/", 0)] := by
      with_unfolding_all rfl
    rw [hlog]; simp
  · with_unfolding_all rfl
  · refine .inr ⟨?_, rfl, rfl, rfl⟩
    intro o ho
    simp [Spec.conf] at ho
    subst ho
    rintro ⟨p, hp, hp'⟩
    simp at hp
    subst hp
    revert hp'
    decide +kernel
  · decide +kernel

/-! ## The rotation -/

/-- How many attempts were made so far at the addresses of one destination. -/
def Spec.tries (slot : Option Nat) : List Conn → Nat
  | [] => 0
  | c :: l => (if c.dial.slot = slot then c.dial.tried.length else 0) + Spec.tries slot l

theorem tries_append (slot : Option Nat) (l l' : List Conn) :
    Spec.tries slot (l ++ l') = Spec.tries slot l + Spec.tries slot l' := by
  induction l with
  | nil => simp [Spec.tries]
  | cons c l ih => simp only [List.cons_append, Spec.tries, ih]; omega

theorem tries_set (slot : Option Nat) {l : List Conn} {i : Nat} {c c' : Conn} (h : l[i]? = some c)
    (hs : c'.dial.slot = c.dial.slot) (ht : c'.dial.tried.length = c.dial.tried.length + 1) :
    Spec.tries slot (l.set i c') = Spec.tries slot l + if slot = c.dial.slot then 1 else 0 := by
  induction l generalizing i with
  | nil => cases h
  | cons a l ih =>
    cases i with
    | zero =>
      cases h
      simp only [List.set, Spec.tries, hs, ht]
      by_cases e : c.dial.slot = slot
      · rw [if_pos e, if_pos e, if_pos e.symm]; omega
      · rw [if_neg e, if_neg e, if_neg (fun x => e x.symm)]; omega
    | succ i =>
      simp only [List.set, Spec.tries, ih h]
      omega

/-- Only destinations with addresses are dialled for requests. -/
theorem target_addresses {enc : Header → Bytes} {cf : Conf} {q : Request} {ov : Option Nat} {k : Str}
    (h : q.target enc cf = some (ov, k)) : (destOf cf.dial ov).addresses ≠ [] := by
  obtain ⟨p, hs, ck, he⟩ := target_some h
  rcases Http.override_forward _ _ _ _ _ _ _ _ he with ⟨i, o, rfl, hf, ho⟩ | ⟨rfl, hn, ha⟩
  · have hd : cf.dial.overrides[i]? = some
        { addresses := o.addresses, mode := cf.overrideModes.getD i "HTTPS", ppVersion := o.proxyVersion } := by
      simp [Conf.dial, List.getElem?_mapIdx, hf.1]
    simpa [destOf, hd] using ho
  · exact ha

theorem destFor_addresses (cf : Conf) (t : Transport) (slot : Option Nat) :
    (destFor cf t slot).addresses = (destOf cf.dial slot).addresses := by
  unfold destFor
  dsimp only
  split <;> rfl

structure Rot (cf : Conf) (s : St) : Prop where
  next : ∀ slot, s.next slot = Spec.tries slot s.conns % (destOf cf.dial slot).addresses.length
  live : ∀ c ∈ s.conns, 0 < (destOf cf.dial c.dial.slot).addresses.length
  nopanic : ∀ c ∈ s.conns, c.dial.result ≠ some .panicked ∧ c.dial.result ≠ some .noAddresses

theorem rot_step {enc : Header → Bytes} {cf : Conf} {s : St} (h : Rot cf s) (op : Op) : Rot cf (s.step enc cf op) := by
  cases op with
  | start q =>
    unfold St.step
    dsimp only
    split
    · exact h
    · rename_i ov k hq
      have hpos : 0 < (destOf cf.dial ov).addresses.length := List.length_pos_iff.mpr (target_addresses hq)
      rw [(target_home hq).1, destFor_addresses]
      refine ⟨?_, ?_, ?_⟩
      · intro sl
        dsimp only
        rw [tries_append, h.next]
        congr 1
        simp [Spec.tries]
      · intro c hc
        rcases List.mem_append.1 hc with hc | hc
        · exact h.live c hc
        · rw [List.mem_singleton.1 hc]
          exact hpos
      · intro c hc
        rcases List.mem_append.1 hc with hc | hc
        · exact h.nopanic c hc
        · rw [List.mem_singleton.1 hc]
          dsimp only
          rw [if_neg (by omega)]
          exact ⟨nofun, nofun⟩
  | attempt i net =>
    unfold St.step
    dsimp only
    split
    · exact h
    · rename_i c hc
      unfold attempt
      split
      · exact h
      · rename_i hres
        have hres : c.dial.result = none := by simpa using hres
        have hcm := List.mem_of_getElem? hc
        have hpos := h.live c hcm
        have hlt : s.next c.dial.slot < (destFor cf c.transport c.dial.slot).addresses.length := by
          rw [destFor_addresses, h.next]; exact Nat.mod_lt _ hpos
        obtain ⟨t1, t2, t3, -, t5, t6⟩ := Dial.turn_panic enc _ _ _ net hlt hres
        rw [destFor_addresses] at t1
        dsimp only
        generalize hr : turn enc (destFor cf c.transport c.dial.slot) (s.next c.dial.slot) c.dial net = r at *
        refine ⟨?_, ?_, ?_⟩
        · intro sl
          dsimp only
          rw [tries_set sl hc (c' := { c with dial := r.2 }) t3 (by simp [t2])]
          split
          · rename_i e
            subst e
            rw [t1, h.next, Nat.mod_add_mod]
          · rw [h.next]; simp
        · intro x hx
          rcases List.mem_or_eq_of_mem_set hx with hx | rfl
          · exact h.live x hx
          · dsimp only; rw [t3]; exact hpos
        · intro x hx
          rcases List.mem_or_eq_of_mem_set hx with hx | rfl
          · exact h.nopanic x hx
          · exact ⟨t5, t6⟩
  | send q i =>
    unfold St.step
    dsimp only
    split
    · exact h
    · split
      · exact h
      · split
        · exact ⟨h.next, h.live, h.nopanic⟩
        · exact h

/-- C13 and C111 (the rotation, HTTP). However the dials for requests interleave: the next attempt for a destination goes
to the address whose number is that of the attempts made for this destination so far, modulo the number of addresses,
whichever transport made them and whatever happens to other destinations; only destinations with addresses are dialled;
and no index is out of range. -/
theorem rotation_shared (enc : Header → Bytes) (cf : Conf) (ops : List Op) :
    let s := ({} : St).run enc cf ops
    (∀ slot, s.next slot = Spec.tries slot s.conns % (destOf cf.dial slot).addresses.length) ∧
    (∀ c ∈ s.conns, (destOf cf.dial c.dial.slot).addresses ≠ [] ∧
      c.dial.result ≠ some .panicked ∧ c.dial.result ≠ some .noAddresses) := by
  have : ∀ (ops : List Op) (s : St), Rot cf s → Rot cf (s.run enc cf ops) := by
    intro ops
    induction ops with
    | nil => exact fun _ h => h
    | cons o os ih => exact fun s h => ih _ (rot_step h o)
  have h := this ops {} ⟨fun _ => by simp [Spec.tries], fun _ h => (nomatch h), fun _ h => (nomatch h)⟩
  exact ⟨h.next, fun c hc => ⟨List.length_pos_iff.mp (h.live c hc), h.nopanic c hc⟩⟩

/-- Non-vacuity: three attempts at the two addresses of a path override over two connections, one at the backend. -/
example : let s := ({} : St).run Spec.enc (Spec.conf (some "h2")) (Spec.history ++
      [.start (Spec.request "1.1.1.3" "/x/"), .attempt 2 (.connected none)])
    Spec.tries (some 0) s.conns = 3 ∧ s.next (some 0) = 1 ∧ Spec.tries none s.conns = 1 ∧ s.next none = 0 := by
  refine ⟨?_, ?_, ?_, ?_⟩ <;> decide +kernel

end Verif.Pool
