import Verif.Model.Acme
import Verif.Props.Certs
import Verif.Props.Dispatch
/-
C127: for which names certificates are asked of the certificate manager.
-/
namespace Verif.Acme

open Verif.Dispatch (IP Cidr)

/-! ## Specification -/

/-- A backend that terminates TLS declares the name. -/
def Spec.Serves (c : Conf) (n : String) : Prop :=
  ∃ be ∈ c.cfg.backends, n ∈ be.serverNames ∧ be.mode ≠ "TLSPASSTHROUGH"

/-- No certificate for the name is configured. -/
def Spec.NoOwn (c : Conf) (n : String) : Prop := ∀ e ∈ c.entries, ¬ Certs.Spec.For e n.toList

/-- The rules of backend `b` admit the address. -/
def Spec.Admits (c : Conf) (b : Nat) (addr : Option IP) : Prop :=
  ∃ ip, addr = some ip ∧ (∀ l, (c.rules b).1 = some l → ∀ n ∈ l, ¬ Dispatch.Spec.member n ip) ∧
    (∀ l, (c.rules b).2 = some l → ∃ n ∈ l, Dispatch.Spec.member n ip)

/-- The configurations that have been in force. -/
def Spec.confs (c : Conf) (ops : List Op) : List Conf :=
  c :: ops.filterMap fun
    | .reload c => some c
    | _ => none

/-- C127 in full: every request to the certificate manager is for a name that the configuration in force serves, whose
certificate is not configured, with accepted terms of service, for a client that was admitted. -/
def Spec.Proper (a : Asked) : Prop :=
  Spec.Serves a.now a.name ∧ Spec.NoOwn a.now a.name ∧ a.now.acceptTOS = true ∧
    Spec.Admits a.conn.conf a.conn.backend a.conn.addr

/-! ## Invariant -/

theorem addProtos_mem (n : String) (i : Nat) (n' p' : String) (b : Nat) (ps : List String) :
    ∀ t : Config.Table, Config.addProtos t n i ps n' p' = some b → t n' p' = some b ∨ (b = i ∧ n' = n) := by
  induction ps with
  | nil => intro t h; exact .inl h
  | cons p ps ih =>
    intro t h
    rcases ih _ h with h | h
    · unfold Config.Table.set at h
      split at h
      · rename_i hn; cases h; exact .inr ⟨rfl, hn.1⟩
      · exact .inl h
    · exact .inr h

theorem addNames_mem (i : Nat) (ps : List String) (n' p' : String) (b : Nat) (ns : List String) :
    ∀ t : Config.Table, Config.addNames t i ps ns n' p' = some b → t n' p' = some b ∨ (b = i ∧ n' ∈ ns) := by
  induction ns with
  | nil => intro t h; exact .inl h
  | cons n ns ih =>
    intro t h
    rcases ih _ h with h | ⟨h1, h2⟩
    · rcases addProtos_mem _ _ _ _ _ _ _ h with h | ⟨h1, h2⟩
      · split at h
        · unfold Config.Table.set at h
          split at h
          · rename_i hn; cases h; exact .inr ⟨rfl, by simp [hn.1]⟩
          · exact .inl h
        · exact .inl h
      · exact .inr ⟨h1, by simp [h2]⟩
    · exact .inr ⟨h1, by simp [h2]⟩

theorem buildTable_mem (n p : String) (b : Nat) (bs : List Config.Backend) :
    ∀ (t : Config.Table) (i : Nat), Config.buildTable t i bs n p = some b →
      t n p = some b ∨ ∃ j be, b = i + j ∧ bs[j]? = some be ∧ n ∈ be.serverNames := by
  induction bs with
  | nil => intro t i h; exact .inl h
  | cons be bs ih =>
    intro t i h
    rcases ih _ _ h with h | ⟨j, be', h1, h2, h3⟩
    · rcases addNames_mem _ _ _ _ _ _ _ h with h | ⟨h1, h2⟩
      · exact .inl h
      · exact .inr ⟨0, be, h1, rfl, h2⟩
    · exact .inr ⟨j + 1, be', by omega, by simpa using h2, h3⟩

/-- Whoever is in the table declares the name. -/
theorem table_mem {bs : List Config.Backend} {n p : String} {b : Nat} (h : Config.tableOf bs n p = some b) :
    ∃ be, bs[b]? = some be ∧ n ∈ be.serverNames := by
  rcases buildTable_mem _ _ _ _ _ _ h with h | ⟨j, be, rfl, h2, h3⟩
  · cases h
  · exact ⟨be, by simpa using h2, h3⟩

theorem lookup_mem {bs : List Config.Backend} {n : String} {ps : List String} {b : Nat}
    (h : Config.lookupProtos (Config.tableOf bs) n ps = some b) : ∃ be, bs[b]? = some be ∧ n ∈ be.serverNames := by
  induction ps with
  | nil => cases h
  | cons p ps ih =>
    unfold Config.lookupProtos at h
    split at h
    · rename_i ht; cases h; exact table_mem ht
    · exact ih h

theorem route_mem {bs : List Config.Backend} {n : String} {ps : List String} {b : Nat} {down : Nat → Bool}
    (h : Config.route (Config.tableOf bs) down n ps = .to b) : ∃ be, bs[b]? = some be ∧ n ∈ be.serverNames := by
  unfold Config.route at h
  split at h
  · cases h
  · rename_i i hi
    split at h
    · cases h
    · cases h
      split at hi
      · rename_i hl; cases hi; exact lookup_mem hl
      · exact table_mem hi

/-- What is known of a connection: its backend terminates TLS and declares its server name, under the configuration in
force at its arrival; over TCP its rules admit the client. -/
structure Good (c : Conn) : Prop where
  serves : ∃ be, c.conf.cfg.backends[c.backend]? = some be ∧ c.serverName ∈ be.serverNames ∧ be.mode ≠ "TLSPASSTHROUGH"
  name : (c.quic = true → c.serverName = c.sni) ∧ (c.quic = false → c.serverName = c.conf.nameOf c.sni)
  admitted : c.quic = false → Spec.Admits c.conf c.backend c.addr
  noACME : c.quic = false → ¬ (c.protos = ["acme-tls/1"] ∧ c.sni ≠ "")

theorem acceptTCP_some {c : Conf} {sni : String} {protos : List String} {addr : Option IP} {b : Nat}
    (h : acceptTCP c sni protos addr = some b) :
    (∃ be, c.cfg.backends[b]? = some be ∧ c.nameOf sni ∈ be.serverNames ∧ be.mode ≠ "TLSPASSTHROUGH") ∧
      Spec.Admits c b addr ∧ ¬ (protos = ["acme-tls/1"] ∧ sni ≠ "") := by
  unfold acceptTCP at h
  split at h
  · rename_i b' hr
    split at h
    · cases h
    · rename_i be hbe
      split at h
      · cases h
      · rename_i hm
        split at h
        · cases h
        · rename_i hacme
          split at h
          · cases h
          · rename_i hip
            cases h
            obtain ⟨be', h1, h2⟩ := route_mem hr
            rw [hbe] at h1
            cases h1
            refine ⟨⟨be, hbe, h2, hm⟩, ?_⟩
            exact ⟨(Dispatch.ip_rules _ _ _).mp (by simpa using hip), hacme⟩
  · cases h

theorem acceptQUIC_some {c : Conf} {sni : String} {protos : List String} {b : Nat}
    (h : acceptQUIC c sni protos = some b) :
    ∃ be, c.cfg.backends[b]? = some be ∧ sni ∈ be.serverNames ∧ be.mode ≠ "TLSPASSTHROUGH" := by
  induction protos with
  | nil => cases h
  | cons p ps ih =>
    unfold acceptQUIC at h
    split at h
    · exact ih h
    · rename_i b' ht
      split at h
      · exact ih h
      · rename_i be hbe
        split at h
        · rename_i hm
          cases h
          obtain ⟨be', h1, h2⟩ := table_mem ht
          rw [hbe] at h1
          cases h1
          exact ⟨be, hbe, h2, hm⟩
        · exact ih h

/-- What is known of a request to the certificate manager. -/
structure GoodAsk (a : Asked) : Prop where
  good : Good a.conn
  name : a.client = true → a.name = a.conn.serverName
  shake : a.client = false → certName a.now a.conn.sni = some a.name

structure Inv (s : St) : Prop where
  conns : ∀ c ∈ s.conns, Good c
  asked : ∀ a ∈ s.asked, GoodAsk a

theorem inv_step {s : St} (h : Inv s) (op : Op) : Inv (step s op) := by
  cases op with
  | reload c => exact ⟨h.conns, h.asked⟩
  | tcp sni protos addr =>
    unfold step
    dsimp only
    split
    · exact h
    · rename_i b hb
      obtain ⟨h1, h2, h3⟩ := acceptTCP_some hb
      refine ⟨?_, h.asked⟩
      intro c hc
      rcases List.mem_append.mp hc with hc | hc
      · exact h.conns c hc
      · simp only [List.mem_singleton] at hc
        subst hc
        exact ⟨h1, ⟨by simp, fun _ => rfl⟩, fun _ => h2, fun _ => h3⟩
  | quic sni protos addr =>
    unfold step
    dsimp only
    split
    · exact h
    · rename_i b hb
      refine ⟨?_, h.asked⟩
      intro c hc
      rcases List.mem_append.mp hc with hc | hc
      · exact h.conns c hc
      · simp only [List.mem_singleton] at hc
        subst hc
        exact ⟨acceptQUIC_some hb, ⟨fun _ => rfl, by simp⟩, by simp, by simp⟩
  | shake i =>
    unfold step
    dsimp only
    split
    · exact h
    · rename_i c hc
      have hg := h.conns c (List.mem_of_getElem? hc)
      unfold St.onConn
      dsimp only
      split
      · exact h
      · unfold St.shake
        refine ⟨?_, ?_⟩
        · intro c' hc'
          rcases List.mem_or_eq_of_mem_set hc' with hc' | rfl
          · exact h.conns c' hc'
          · exact ⟨hg.serves, hg.name, hg.admitted, hg.noACME⟩
        · intro a ha
          dsimp only at ha
          split at ha
          · rename_i n hn
            rcases List.mem_append.mp ha with ha | ha
            · exact h.asked a ha
            · simp only [List.mem_singleton] at ha
              subst ha
              exact ⟨hg, by simp, fun _ => hn⟩
          · exact h.asked a ha
  | request i =>
    unfold step
    dsimp only
    split
    · exact h
    · rename_i c hc
      have hg := h.conns c (List.mem_of_getElem? hc)
      unfold St.onConn
      dsimp only
      split
      · unfold St.request
        refine ⟨h.conns, ?_⟩
        intro a ha
        rcases List.mem_append.mp ha with ha | ha
        · exact h.asked a ha
        · simp only [List.mem_singleton] at ha
          subst ha
          exact ⟨hg, fun _ => rfl, by simp⟩
      · exact h

theorem inv_run (c : Conf) (ops : List Op) : Inv (run c ops) := by
  have : ∀ s, Inv s → Inv (ops.foldl step s) := by
    induction ops with
    | nil => intro s h; exact h
    | cons op ops ih => intro s h; exact ih _ (inv_step h op)
  exact this _ ⟨by simp, by simp⟩

/-! ## The configurations are those that were in force -/

structure In (L : List Conf) (s : St) : Prop where
  conf : s.conf ∈ L
  conns : ∀ x ∈ s.conns, x.conf ∈ L
  asked : ∀ a ∈ s.asked, a.conn.conf ∈ L ∧ a.now ∈ L

theorem in_step {L : List Conf} {s : St} (h : In L s) (op : Op) (hop : ∀ c, op = .reload c → c ∈ L) :
    In L (step s op) := by
  cases op with
  | reload c => exact ⟨hop c rfl, h.conns, h.asked⟩
  | tcp sni protos addr =>
    unfold step
    dsimp only
    split
    · exact h
    · refine ⟨h.conf, fun x hx => ?_, h.asked⟩
      rcases List.mem_append.mp hx with hx | hx
      · exact h.conns x hx
      · simp only [List.mem_singleton] at hx
        subst hx
        exact h.conf
  | quic sni protos addr =>
    unfold step
    dsimp only
    split
    · exact h
    · refine ⟨h.conf, fun x hx => ?_, h.asked⟩
      rcases List.mem_append.mp hx with hx | hx
      · exact h.conns x hx
      · simp only [List.mem_singleton] at hx
        subst hx
        exact h.conf
  | shake i =>
    unfold step
    dsimp only
    split
    · exact h
    · rename_i c hc
      have hg := h.conns c (List.mem_of_getElem? hc)
      unfold St.onConn
      dsimp only
      split
      · exact h
      · unfold St.shake
        refine ⟨h.conf, ?_, ?_⟩
        · intro c' hc'
          rcases List.mem_or_eq_of_mem_set hc' with hc' | rfl
          · exact h.conns c' hc'
          · exact hg
        · intro a ha
          dsimp only at ha
          split at ha
          · rcases List.mem_append.mp ha with ha | ha
            · exact h.asked a ha
            · simp only [List.mem_singleton] at ha
              subst ha
              exact ⟨hg, h.conf⟩
          · exact h.asked a ha
  | request i =>
    unfold step
    dsimp only
    split
    · exact h
    · rename_i c hc
      have hg := h.conns c (List.mem_of_getElem? hc)
      unfold St.onConn
      dsimp only
      split
      · unfold St.request
        refine ⟨h.conf, h.conns, ?_⟩
        intro a ha
        rcases List.mem_append.mp ha with ha | ha
        · exact h.asked a ha
        · simp only [List.mem_singleton] at ha
          subst ha
          exact ⟨hg, h.conf⟩
      · exact h

theorem in_run (c : Conf) (ops : List Op) : In (Spec.confs c ops) (run c ops) := by
  have : ∀ (L : List Conf) (ops : List Op), (∀ c, .reload c ∈ ops → c ∈ L) → ∀ s, In L s → In L (ops.foldl step s) := by
    intro L ops
    induction ops with
    | nil => intro _ s h; exact h
    | cons op ops ih =>
      intro hL s h
      exact ih (fun c hc => hL c (by simp [hc])) _ (in_step h op fun c hc => hL c (by simp [hc]))
  refine this _ ops ?_ _ ⟨by simp [Spec.confs], by simp, by simp⟩
  intro x hx
  unfold Spec.confs
  exact List.mem_cons_of_mem _ (List.mem_filterMap.mpr ⟨_, hx, rfl⟩)

/-! ## C127 -/

theorem certName_some {now : Conf} {sni n : String} (h : certName now sni = some n) (hs : '/' ∉ (now.nameOf sni).toList) :
    n = now.nameOf sni ∧ Spec.NoOwn now n ∧ now.acceptTOS = true := by
  unfold certName at h
  split at h
  · rename_i m hm
    cases h
    have := (Certs.certificate_managed now.entries now.cfg.defaultServerName.toList sni.toList (now.nameOf sni).toList m
      now.acceptTOS true (by
        unfold Conf.nameOf
        by_cases he : sni = ""
        · right; simp [he]
        · left; simp [he]) hs).mp hm
    obtain ⟨rfl, h2, h3⟩ := this
    refine ⟨by simp, ?_, h3 rfl⟩
    unfold Spec.NoOwn
    simpa using h2
  · cases h

theorem Good.servesAt {c : Conn} (h : Good c) : Spec.Serves c.conf c.serverName := by
  obtain ⟨be, h1, h2, h3⟩ := h.serves
  exact ⟨be, List.mem_of_getElem? h1, h2, h3⟩

/-- C127 (partial, handshakes; see `handshake_default_violated` and `quic_denied_violated` for what is missing). In
every history of configurations, connections and handshakes: when the certificate manager is asked because of a
client's handshake, the terms of service are accepted and no certificate is configured for the name, both under the
configuration in force. The name is the one in the ClientHello, and a backend of the configuration that was in force
when the ClientHello was read terminates TLS for it; for a ClientHello without name it is the default name now in
force, which such a backend serves unless it was changed meanwhile. Over TCP that backend's IP rules admit the
client, and the connection is not an ACME validation for that name. -/
theorem handshake_partial (c : Conf) (ops : List Op) (a : Asked) (ha : a ∈ (run c ops).asked) (hc : a.client = false)
    (hs : '/' ∉ (a.now.nameOf a.conn.sni).toList) :
    a.now ∈ Spec.confs c ops ∧ a.conn.conf ∈ Spec.confs c ops ∧
    a.now.acceptTOS = true ∧ Spec.NoOwn a.now a.name ∧
    (a.conn.sni ≠ "" → a.name = a.conn.sni ∧ Spec.Serves a.conn.conf a.name) ∧
    (a.conn.sni = "" → a.name = a.now.cfg.defaultServerName ∧
      (a.conn.quic = false → a.now.cfg.defaultServerName = a.conn.conf.cfg.defaultServerName →
        Spec.Serves a.conn.conf a.name)) ∧
    (a.conn.quic = false → Spec.Admits a.conn.conf a.conn.backend a.conn.addr ∧
      ¬ (a.conn.protos = ["acme-tls/1"] ∧ a.conn.sni ≠ "")) := by
  have h := (inv_run c ops).asked a ha
  have hi := (in_run c ops).asked a ha
  obtain ⟨h1, h2, h3⟩ := certName_some (h.shake hc) hs
  have hserves := h.good.servesAt
  refine ⟨hi.2, hi.1, h3, h2, ?_, ?_, fun hq => ⟨h.good.admitted hq, h.good.noACME hq⟩⟩
  · intro hne
    have hname : a.name = a.conn.sni := by rw [h1]; unfold Conf.nameOf; rw [if_neg hne]
    refine ⟨hname, ?_⟩
    have : a.conn.serverName = a.conn.sni := by
      cases hq : a.conn.quic with
      | true => exact h.good.name.1 hq
      | false => rw [h.good.name.2 hq]; unfold Conf.nameOf; rw [if_neg hne]
    rw [hname, ← this]
    exact hserves
  · intro he
    have hname : a.name = a.now.cfg.defaultServerName := by rw [h1]; unfold Conf.nameOf; rw [if_pos he]
    refine ⟨hname, fun hq hd => ?_⟩
    have : a.conn.serverName = a.conn.conf.cfg.defaultServerName := by
      rw [h.good.name.2 hq]; unfold Conf.nameOf; rw [if_pos he]
    rw [hname, hd, ← this]
    exact hserves

/-- C127 over TCP, as long as the configuration is not reloaded: handshakes ask for nothing but names that are served,
without configured certificate, with accepted terms, for admitted clients. -/
theorem handshake_proper_partial (c : Conf) (ops : List Op) (hno : ∀ c', .reload c' ∉ ops) (a : Asked)
    (ha : a ∈ (run c ops).asked) (hc : a.client = false) (hq : a.conn.quic = false)
    (hs : '/' ∉ (a.now.nameOf a.conn.sni).toList) : Spec.Proper a := by
  obtain ⟨h1, h2, h3, h4, h5, h6, h7⟩ := handshake_partial c ops a ha hc hs
  have hconfs : ∀ x ∈ Spec.confs c ops, x = c := by
    intro x hx
    unfold Spec.confs at hx
    rcases List.mem_cons.mp hx with hx | hx
    · exact hx
    · obtain ⟨op, hop, he⟩ := List.mem_filterMap.mp hx
      cases op <;> simp at he
      exact absurd hop (hno _)
  have e1 := hconfs _ h1
  have e2 := hconfs _ h2
  refine ⟨?_, h4, h3, (h7 hq).1⟩
  rw [e1, ← e2]
  by_cases he : a.conn.sni = ""
  · exact (h6 he).2 hq (by rw [e1, e2])
  · exact (h5 he).2

/-- C127 (partial, client certificates; `client_certificate_violated` shows what is missing). When the certificate
manager is asked because a server wants a certificate of the proxy, the name is the server name of the client's
connection, for which a backend terminated TLS when the connection arrived. -/
theorem client_certificate_partial (c : Conf) (ops : List Op) (a : Asked) (ha : a ∈ (run c ops).asked)
    (hc : a.client = true) :
    a.name = a.conn.serverName ∧ a.conn.conf ∈ Spec.confs c ops ∧ Spec.Serves a.conn.conf a.name := by
  have h := (inv_run c ops).asked a ha
  have hn := h.name hc
  refine ⟨hn, ((in_run c ops).asked a ha).1, ?_⟩
  rw [hn]
  exact h.good.servesAt

/-! ## Violations and examples -/

def Spec.c1 : Conf where
  cfg := { defaultServerName := "a"
           backends := [{ serverNames := ["a"], alpnProtos := some ["h2", "h3"], mode := "HTTPS" },
             { serverNames := ["b"], alpnProtos := some ["h2"], mode := "TLSPASSTHROUGH" }] }
  rules := fun _ => (some [⟨[10, 0, 0, 0], 8⟩], none)

/-- Non-vacuity: the certificate manager is asked for "a", by name and by default; not for a passthrough backend's
name, an unknown name, a denied client, or with the terms of service not accepted. -/
example : ((run Spec.c1 [.tcp "a" ["h2"] (some [8, 8, 8, 8]), .shake 0, .tcp "" [] (some [8, 8, 8, 8]), .shake 1,
      .tcp "b" ["h2"] (some [8, 8, 8, 8]), .shake 2, .tcp "x" ["h2"] (some [8, 8, 8, 8]), .shake 2,
      .tcp "a" ["h2"] (some [10, 8, 8, 8]), .shake 2, .quic "a" ["h3"] (some [8, 8, 8, 8]), .shake 2, .request 2]).asked.map
      fun a => (a.name, a.client)) = [("a", false), ("a", false), ("a", false), ("a", true)] ∧
    ((run { Spec.c1 with acceptTOS := false } [.tcp "a" ["h2"] (some [8, 8, 8, 8]), .shake 0]).asked.map
      fun a => a.name) = [] := by decide +kernel

/-- C127 (violated). A certificate is asked for as client certificate although the terms of service are not accepted,
and although a certificate is configured for the name: the client's handshake uses the configured one. -/
theorem client_certificate_violated :
    ∃ (c : Conf) (ops : List Op) (a : Asked), a ∈ (run c ops).asked ∧ a.now.acceptTOS = false ∧
      ¬ Spec.NoOwn a.now a.name ∧ ∀ a' ∈ (run c ops).asked, a'.client = true := by
  let c : Conf := { Spec.c1 with acceptTOS := false, entries := [⟨["a".toList], some 1⟩] }
  let ops : List Op := [.tcp "a" ["h2"] (some [8, 8, 8, 8]), .shake 0, .request 0]
  let x : Conn := ⟨"a", ["h2"], some [8, 8, 8, 8], false, c, 0, "a", false⟩
  have hcn : certName c "a" = none := by decide +kernel
  have hx : St.shake { conf := c, conns := [x] } 0 x = { conf := c, conns := [{ x with shaken := true }] } := by
    unfold St.shake
    dsimp only [x]
    rw [hcn]
    rfl
  have h : ∃ a, (run c ops).asked = [a] ∧ a.now = c ∧ a.name = "a" ∧ a.client = true := by
    refine ⟨⟨"a", { x with shaken := true }, c, true⟩, ?_, rfl, rfl, rfl⟩
    show (step (St.shake { conf := c, conns := [x] } 0 x) (.request 0)).asked = _
    rw [hx]
    rfl
  obtain ⟨a, h1, h2, h3, h4⟩ := h
  refine ⟨c, ops, a, by rw [h1]; simp, by rw [h2], ?_, by rw [h1]; simpa using h4⟩
  rw [h2, h3]
  intro hno
  exact hno ⟨["a".toList], some 1⟩ (by simp [c]) ⟨"a".toList, by simp, .inl rfl⟩

/-- C127 (violated). The default server name is read again in the handshake: after a reload a certificate is asked for
a name that no backend of any configuration serves. -/
theorem handshake_default_violated :
    ∃ (c : Conf) (ops : List Op) (a : Asked), a ∈ (run c ops).asked ∧ a.client = false ∧ a.name = "nobody" ∧
      ∀ x ∈ Spec.confs c ops, ¬ Spec.Serves x a.name := by
  let c2 : Conf := { Spec.c1 with cfg := { Spec.c1.cfg with defaultServerName := "nobody" } }
  let ops : List Op := [.tcp "" ["h2"] (some [8, 8, 8, 8]), .reload c2, .shake 0]
  have h : ∃ a, (run Spec.c1 ops).asked = [a] ∧ a.name = "nobody" ∧ a.client = false :=
    ⟨_, rfl, by decide +kernel, rfl⟩
  obtain ⟨a, h1, h3, h4⟩ := h
  refine ⟨Spec.c1, ops, a, by rw [h1]; simp, h4, h3, ?_⟩
  rw [h3]
  intro x hx
  have : x = Spec.c1 ∨ x = c2 := by simpa [Spec.confs, ops] using hx
  rintro ⟨be, hbe, hn, -⟩
  rcases this with rfl | rfl
  · simp only [Spec.c1, List.mem_cons, List.not_mem_nil, or_false] at hbe
    rcases hbe with rfl | rfl <;> simp at hn
  · simp only [c2, Spec.c1, List.mem_cons, List.not_mem_nil, or_false] at hbe
    rcases hbe with rfl | rfl <;> simp at hn

/-- C127 (violated). Over QUIC the IP rules are only consulted after the handshake: a client that they deny makes the
proxy ask for a certificate. -/
theorem quic_denied_violated :
    ∃ (c : Conf) (ops : List Op) (a : Asked), a ∈ (run c ops).asked ∧ a.client = false ∧
      ¬ Spec.Admits a.conn.conf a.conn.backend a.conn.addr := by
  let ops : List Op := [.quic "a" ["h3"] (some [10, 8, 8, 8]), .shake 0]
  have h : ∃ a, (run Spec.c1 ops).asked = [a] ∧ a.conn.conf = Spec.c1 ∧ a.conn.addr = some [10, 8, 8, 8] ∧
      a.client = false := ⟨_, rfl, rfl, rfl, rfl⟩
  obtain ⟨a, h1, h2, h3, h4⟩ := h
  refine ⟨Spec.c1, ops, a, by rw [h1]; simp, h4, ?_⟩
  rw [h2, h3]
  rintro ⟨ip, hip, hd, -⟩
  cases hip
  exact hd _ rfl ⟨[10, 0, 0, 0], 8⟩ (by simp) ((Dispatch.contains_iff _ _).mp (by decide))

end Verif.Acme
