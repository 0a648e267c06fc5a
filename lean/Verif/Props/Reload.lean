import Verif.Model.Reload
import Verif.Props.Dispatch
import Verif.Props.Reconf
/-
C115: a reload that does not concern a server leaves its connections alone.
-/
namespace Verif.Reload

open Verif.Dispatch (World Be Conn Cert checkIP handshake authorizeTLS authorizeTLS_some route_again authorize)
open Verif.Reconf (Open Fate reauth1 reAuthorize)

/-! ## Specification -/

/-- The name is served in the new world as in the old one: whatever a client offers it is served by a backend
of the same mode, with the same IP rules and the same demands on client certificates. The number of the
backend may have changed. -/
def Spec.Same (old new : World) (n : String) : Prop :=
  ∀ ps b, old.route n ps = .to b → ∃ b', new.route n ps = .to b' ∧ (new.be b').mode = (old.be b).mode ∧
    (new.be b').denyIPs = (old.be b).denyIPs ∧ (new.be b').allowIPs = (old.be b).allowIPs ∧
    (new.be b').clientAuth = (old.be b).clientAuth

/-- The server name of a connection. -/
def Spec.nameOf (w : World) (c : Conn) : Option String :=
  c.hello.map fun h => if h.1 = "" then w.defaultServerName else h.1

/-- The full claim: in an accepted configuration, a connection that the IP rules of its backend admit is left
alone, in every phase, if the new configuration serves its name as before. -/
def Spec.Undisturbed : Prop :=
  ∀ (env : Config.Env) (raw cfg : Config.Config) (old new : World) (down : Nat → Bool) (c : Conn) (ph : Phase)
    (o : Open) (sni : String) (protos : List String) (b : Nat),
    Config.check env raw = .ok cfg → Dispatch.Spec.Runs old cfg down →
    c.hello = some (sni, protos) → c.client.sni = sni → c.client.protos = protos →
    old.route (if sni = "" then old.defaultServerName else sni) protos = .to b →
    checkIP (old.be b).denyIPs (old.be b).allowIPs c.addr = true →
    (∀ n, Spec.nameOf old c = some n → Spec.Same old new n) →
    recorded old c ph = some o → reauth1 new o = .keep

/-! ## Proof -/

theorem served_cases {w : World} {c : Conn} {o : Open} (h : recorded w c .served = some o) :
    ∃ sni protos b proto cert cert', c.hello = some (sni, protos) ∧
      w.route (if sni = "" then w.defaultServerName else sni) protos = .to b ∧
      checkIP (w.be b).denyIPs (w.be b).allowIPs c.addr = true ∧
      handshake w (w.be b) (w.be b).nextProtosTCP false c.client = some (proto, cert) ∧
      authorizeTLS w b (if sni = "" then w.defaultServerName else sni) c.client = some cert' ∧
      o = { serverName := some (if sni = "" then w.defaultServerName else sni), proto := proto,
            oldMode := some (w.be b).mode, addr := c.addr, cert := cert } := by
  unfold recorded at h
  dsimp only at h
  split at h
  · cases h
  split at h
  · cases h
  rename_i sni protos hh
  unfold afterHello at h
  dsimp only at h
  split at h
  · rename_i b hr
    unfold afterRouting afterHandshake at h
    dsimp only at h
    split at h
    · cases h
    split at h
    · cases h
    split at h
    · cases h
    rename_i hip
    split at h
    · rename_i proto cert cert' h1 h2
      cases h
      exact ⟨sni, protos, b, proto, cert, cert', hh, hr, by simpa using hip, h1, h2, rfl⟩
    · cases h
  · cases h

theorem handshake_negotiated {w : World} {b : Be} {np : List String} {quic : Bool} {c : Dispatch.Client}
    {proto : String} {cert : Option Cert} (h : handshake w b np quic c = some (proto, cert)) :
    Dispatch.negotiateALPN np c.protos quic = some proto := by
  unfold handshake at h
  split at h
  · cases h
  split at h
  · cases h
  · rename_i p hp
    split at h
    · cases h; exact hp
    · split at h
      · cases h
      · split at h
        · cases h
        · split at h <;> cases h
          exact hp

theorem authorized_cert {w : World} {b : Nat} {n proto : String} {c : Dispatch.Client} {cert cert' : Option Cert}
    (h1 : handshake w (w.be b) (w.be b).nextProtosTCP false c = some (proto, cert))
    (h2 : authorizeTLS w b n c = some cert') (acl : List String) (hca : (w.be b).clientAuth = some (some acl)) :
    ∃ crt, cert = some crt ∧ authorize (some acl) crt = true := by
  unfold authorizeTLS at h2
  dsimp only at h2
  rw [h1] at h2
  dsimp only at h2
  rw [hca] at h2
  split at h2
  · cases h2
  dsimp only at h2
  split at h2
  · cases h2
  · rename_i crt
    split at h2
    · rename_i ha; exact ⟨crt, rfl, ha⟩
    · cases h2

theorem route_lt {env : Config.Env} {raw cfg : Config.Config} (hcfg : Config.check env raw = .ok cfg)
    (hne : ∀ be ∈ cfg.backends, "" ∉ be.alpnProtos.getD []) {w : World} {down : Nat → Bool}
    (hw : Dispatch.Spec.Runs w cfg down) {n : String} {ps : List String} (hpr : "" ∉ ps) {b : Nat}
    (h : w.route n ps = .to b) : b < cfg.backends.length := by
  rw [hw.route, Config.routing_partial env raw cfg hcfg hne down n ps hpr] at h
  split at h
  · cases h
  · rename_i i hi
    split at h
    · cases h
    · cases h
      unfold Config.Spec.route at hi
      split at hi
      · rename_i j hj
        cases hi
        obtain ⟨q, _, hq⟩ := Dispatch.findSome_spec hj
        exact (List.findIdx?_eq_some_iff_getElem.mp hq).1
      · exact (List.findIdx?_eq_some_iff_getElem.mp hi).1

/-- C115 (partial, 1). Served TLS connections are left alone. Missing: backends that declare the empty protocol,
and clients that offer `h3` over TCP to a backend that declares it (see C12). -/
theorem reload_served_partial (env : Config.Env) (raw cfg : Config.Config)
    (hcfg : Config.check env raw = .ok cfg) (hne : ∀ be ∈ cfg.backends, "" ∉ be.alpnProtos.getD [])
    (old new : World) (down : Nat → Bool) (hw : Dispatch.Spec.Runs old cfg down)
    (c : Conn) (o : Open) (sni : String) (protos : List String) (hpr : "" ∉ protos)
    (hhello : c.hello = some (sni, protos)) (htls : c.client.protos = protos)
    (hno3 : "h3" ∉ protos ∨ ∀ be ∈ cfg.backends, "h3" ∉ be.alpnProtos.getD [])
    (hsame : ∀ n, Spec.nameOf old c = some n → Spec.Same old new n)
    (ho : recorded old c .served = some o) : reauth1 new o = .keep := by
  obtain ⟨sni', protos', b, proto, cert, cert', hh, hr, hip, hs, ha, rfl⟩ := served_cases ho
  rw [hhello] at hh
  cases hh
  have hlt := route_lt hcfg hne hw hpr hr
  have hb : cfg.backends[b]? = some cfg.backends[b] := List.getElem?_eq_getElem hlt
  have hneg := handshake_negotiated hs
  rw [htls] at hneg
  have hr' := route_again env raw cfg hcfg hne old down hw b _ hb _ protos hpr
    (hno3.elim .inr fun h => .inl (h _ (List.getElem_mem hlt))) hr proto hneg
  obtain ⟨b', hn, hm, hd, hal, hca⟩ := hsame _ (by unfold Spec.nameOf; rw [hhello]; rfl) _ _ hr'
  unfold reauth1
  dsimp only
  rw [hn]
  dsimp only
  rw [if_neg (by simp [hm]), hd, hal, if_neg (by simp [hip]), hca]
  split
  · rfl
  · rfl
  · rename_i acl hacl
    obtain ⟨crt, rfl, hok⟩ := authorized_cert hs ha acl hacl
    simp [hok]

/-- C115 (partial, 2). A connection whose handshake is not done, or which is passed through, is left alone if its
backend is the default one of its name and has no list of admitted certificates. -/
theorem reload_routed_partial (old new : World) (c : Conn) (o : Open) (sni : String) (protos : List String) (b : Nat)
    (hhello : c.hello = some (sni, protos))
    (hr : old.route (if sni = "" then old.defaultServerName else sni) protos = .to b)
    (hdef : old.route (if sni = "" then old.defaultServerName else sni) [""] = .to b)
    (hip : checkIP (old.be b).denyIPs (old.be b).allowIPs c.addr = true)
    (hacl : ∀ acl, (old.be b).clientAuth = some acl → acl = none)
    (hsame : ∀ n, Spec.nameOf old c = some n → Spec.Same old new n)
    (ho : recorded old c .routed = some o) : reauth1 new o = .keep := by
  unfold recorded at ho
  dsimp only at ho
  split at ho
  · cases ho
  rw [hhello] at ho
  dsimp only at ho
  unfold afterHello at ho
  dsimp only at ho
  rw [hr] at ho
  cases ho
  obtain ⟨b', hn, hm, hd, hal, hca⟩ := hsame _ (by unfold Spec.nameOf; rw [hhello]; rfl) _ _ hdef
  unfold reauth1
  dsimp only
  rw [hn]
  dsimp only
  rw [if_neg (by simp [hm]), hd, hal, if_neg (by simp [hip]), hca]
  split
  · rfl
  · rfl
  · rename_i acl h
    exact absurd (hacl _ h) (by simp)

/-- Connections that have not announced a name are left alone. -/
theorem reload_accepted (old new : World) (c : Conn) (o : Open) (ho : recorded old c .accepted = some o) :
    reauth1 new o = .keep := by
  cases ho
  rfl

/-- What holds for each connection holds for all of them together. -/
theorem reload_all (new : World) (cs : List Open) (h : ∀ o ∈ cs, reauth1 new o = .keep) :
    reAuthorize new cs = cs.map fun _ => Fate.keep := by
  induction cs with
  | nil => rfl
  | cons o cs ih =>
    rw [reAuthorize, h o (by simp)]
    simp only [List.map_cons]
    rw [ih fun o ho => h o (by simp [ho])]

/-! ## Violations -/

/-- One server name, two backends: web pages, and mail that is passed through. -/
def Spec.rawMail : Config.Config :=
  { backends := [
      { serverNames := ["b.example"], mode := "HTTP", addresses := ["x:80"], alpnProtos := some ["http/1.1"] },
      { serverNames := ["b.example"], mode := "TLSPASSTHROUGH", addresses := ["x:993"], alpnProtos := some ["imap"] }] }

/-- One backend for the holders of one certificate. -/
def Spec.rawCert : Config.Config :=
  { backends := [
      { serverNames := ["b.example"], mode := "TLS", addresses := ["x:443"], alpnProtos := some ["imap"],
        clientAuth := some { acl := some ["CN=x"] } }] }

/-- A world that runs a configuration without IP rules. -/
def Spec.worldOf (cfg : Config.Config) : World where
  route := Config.route (Config.tableOf cfg.backends) (fun _ => false)
  be i := match cfg.backends[i]? with
    | some b => { mode := b.mode, protos := b.alpnProtos.getD [], clientAuth := b.clientAuth.map (·.acl) }
    | none => { mode := "" }
  isRevoked _ _ := false
  ocspOK _ := true
  defaultServerName := ""
  maxOpen := 100

theorem Spec.worldOf_runs (cfg : Config.Config) : Dispatch.Spec.Runs (Spec.worldOf cfg) cfg (fun _ => false) where
  route _ _ := rfl
  mode i b h := by simp [Spec.worldOf, h]
  protos i b h := by simp [Spec.worldOf, h]
  auth i b h := by simp [Spec.worldOf, h]

theorem Spec.same_refl (w : World) (n : String) : Spec.Same w w n :=
  fun _ b h => ⟨b, h, rfl, rfl, rfl, rfl⟩

def Spec.conn (protos : List String) : Conn :=
  { numOpen := 1, hello := some ("b.example", protos), addr := some [1, 2, 3, 4],
    client := { sni := "b.example", protos := protos, cert := some { subject := "CN=x" } } }

/-- C115 fails: a client that is passed through because of the protocol it offers is disconnected by every reload,
because the default backend of the name, which `reAuthorize` looks at, has another mode. -/
theorem reload_passthrough_violated :
    ∃ cfg o, Config.check Config.Spec.env Spec.rawMail = .ok cfg ∧
      Dispatch.handleConnection (Spec.worldOf cfg) (Spec.conn ["imap"]) = [.ipAllowed 1, .dial 1, .closed] ∧
      recorded (Spec.worldOf cfg) (Spec.conn ["imap"]) .routed = some o ∧
      reauth1 (Spec.worldOf cfg) o = .close :=
  ⟨Config.normalise Config.Spec.env Spec.rawMail, _, Config.accepted (by decide +kernel), by decide +kernel, rfl,
    by decide +kernel⟩

/-- C115 fails: if any client, authorized or not, has begun a handshake with a backend that has a list of admitted
certificates, then taking over any changed configuration ends the process. -/
theorem reload_handshake_violated :
    ∃ cfg o, Config.check Config.Spec.env Spec.rawCert = .ok cfg ∧
      recorded (Spec.worldOf cfg) (Spec.conn ["imap"]) .routed = some o ∧
      reauth1 (Spec.worldOf cfg) o = .crash :=
  ⟨Config.normalise Config.Spec.env Spec.rawCert, _, Config.accepted (by decide +kernel), rfl, by decide +kernel⟩

/-- C115 fails: between reading the server name and choosing the backend no backend is recorded, and a connection that
is there when any changed configuration is taken over ends the process, whatever both configurations are. -/
theorem reload_named_violated (old new : World) (c : Conn) (o : Open) (sni : String) (protos : List String)
    (hhello : c.hello = some (sni, protos)) (ho : recorded old c .named = some o) :
    o.serverName = Spec.nameOf old c ∧ reauth1 new o = .crash := by
  unfold recorded at ho
  dsimp only at ho
  split at ho
  · cases ho
  rw [hhello] at ho
  dsimp only at ho
  unfold afterHello at ho
  dsimp only at ho
  cases ho
  unfold Spec.nameOf
  rw [hhello]
  refine ⟨rfl, ?_⟩
  unfold reauth1
  dsimp only
  split <;> rfl

example : (recorded (Spec.worldOf Spec.rawMail) (Spec.conn ["imap"]) .named).isSome = true := by decide +kernel

/-- Hence the full claim does not hold. -/
theorem reload_violated : ¬ Spec.Undisturbed := by
  intro h
  obtain ⟨cfg, o, h1, h2, h3⟩ := reload_handshake_violated
  have hc : cfg = Config.normalise Config.Spec.env Spec.rawCert := by
    rw [Config.accepted (by decide +kernel)] at h1
    cases h1; rfl
  subst hc
  have := h Config.Spec.env Spec.rawCert _ (Spec.worldOf (Config.normalise Config.Spec.env Spec.rawCert))
    (Spec.worldOf (Config.normalise Config.Spec.env Spec.rawCert)) (fun _ => false) (Spec.conn ["imap"]) .routed o "b.example" ["imap"] 0
    h1 (Spec.worldOf_runs _) rfl rfl rfl (by decide +kernel) (by decide +kernel) (fun _ _ => Spec.same_refl _ _) h2
  rw [h3] at this
  cases this

/-! ## Examples -/

/-- Non-vacuity of `reload_served_partial`: after the handshake the same client is left alone, and so is one of the
web pages next to the mail. -/
example :
    (recorded (Spec.worldOf (Config.normalise Config.Spec.env Spec.rawCert)) (Spec.conn ["imap"]) .served).map
      (reauth1 (Spec.worldOf (Config.normalise Config.Spec.env Spec.rawCert))) = some .keep ∧
    (recorded (Spec.worldOf (Config.normalise Config.Spec.env Spec.rawMail)) (Spec.conn ["http/1.1"]) .served).map
      (reauth1 (Spec.worldOf (Config.normalise Config.Spec.env Spec.rawMail))) = some .keep ∧
    (∀ be ∈ (Config.normalise Config.Spec.env Spec.rawMail).backends, "" ∉ be.alpnProtos.getD []) := by
  refine ⟨by decide +kernel, by decide +kernel, by decide +kernel⟩

/-- Non-vacuity of `reload_routed_partial`: the web pages are the default of the name. -/
example :
    (Spec.worldOf (Config.normalise Config.Spec.env Spec.rawMail)).route "b.example" [""] = .to 0 ∧
    (recorded (Spec.worldOf (Config.normalise Config.Spec.env Spec.rawMail)) (Spec.conn ["http/1.1"]) .routed).map
      (reauth1 (Spec.worldOf (Config.normalise Config.Spec.env Spec.rawMail))) = some .keep := by
  refine ⟨by decide +kernel, by decide +kernel⟩

/-! ## What is recorded is what was decided -/

/-- The modes of a valid configuration. -/
def Spec.modes : List String := ["CONSOLE", "LOCAL", "HTTP", "HTTPS", "TCP", "TLS", "QUIC", "TLSPASSTHROUGH"]

theorem handleHTTP_authorized (w : World) (b : Nat) (n : String) (c : Conn) (b' : Nat) (crt : Option Cert) :
    .authorized b' crt ∈ Dispatch.handleHTTP w b n c ↔ b' = b ∧ authorizeTLS w b n c.client = some crt := by
  unfold Dispatch.handleHTTP
  cases h : authorizeTLS w b n c.client with
  | none => simp
  | some x =>
    dsimp only
    split
    · simp; exact fun _ => eq_comm
    · split <;> simp <;> exact fun _ => eq_comm

theorem handleTLS_authorized (w : World) (b : Nat) (n : String) (c : Conn) (b' : Nat) (crt : Option Cert) :
    .authorized b' crt ∈ Dispatch.handleTLS w b n c ↔ b' = b ∧ authorizeTLS w b n c.client = some crt := by
  unfold Dispatch.handleTLS
  cases h : authorizeTLS w b n c.client with
  | none => simp
  | some x =>
    dsimp only
    split
    · simp; exact fun _ => eq_comm
    · split <;> simp <;> exact fun _ => eq_comm

theorem passthrough_unauthorized (b : Nat) (c : Conn) (b' : Nat) (crt : Option Cert) :
    .authorized b' crt ∉ Dispatch.handlePassthrough b c := by
  unfold Dispatch.handlePassthrough
  split
  · simp
  · split <;> simp

theorem afterHandshake_iff (w : World) (c : Conn) (n sni : String) (protos : List String) (b : Nat)
    (hm : (w.be b).mode ∈ Spec.modes) (crt : Option Cert) :
    (∃ b', .authorized b' crt ∈ Dispatch.dispatch w b n sni protos c) ↔
    ∃ o, afterHandshake w c n sni protos b = some o ∧ o.cert = crt := by
  have key : (∃ o, (match handshake w (w.be b) (w.be b).nextProtosTCP false c.client, authorizeTLS w b n c.client with
      | some (proto, cert), some _ =>
        some ({ serverName := some n, proto := proto, oldMode := some (w.be b).mode, addr := c.addr, cert := cert } : Open)
      | _, _ => none) = some o ∧ o.cert = crt) ↔ authorizeTLS w b n c.client = some crt := by
    constructor
    · rintro ⟨o, ho, hc⟩
      split at ho
      · rename_i proto cert cert' h1 h2
        cases ho
        dsimp only at hc
        rw [← hc]
        unfold authorizeTLS at h2 ⊢
        dsimp only at h2 ⊢
        rw [h1] at h2 ⊢
        dsimp only at h2 ⊢
        split at h2
        · cases h2
        · rename_i hn
          rw [if_neg hn]
          split at h2
          · split at h2
            · cases h2
            · split at h2
              · rename_i hau
                rw [if_pos hau]
              · cases h2
          · rfl
      · cases ho
    · intro h2
      cases h1 : handshake w (w.be b) (w.be b).nextProtosTCP false c.client with
      | none => unfold authorizeTLS at h2; dsimp only at h2; rw [h1] at h2; cases h2
      | some p =>
        obtain ⟨proto, cert⟩ := p
        rw [h2]
        refine ⟨_, rfl, ?_⟩
        unfold authorizeTLS at h2
        dsimp only at h2
        rw [h1] at h2
        dsimp only at h2
        split at h2
        · cases h2
        · split at h2
          · split at h2
            · cases h2
            · split at h2 <;> cases h2; rfl
          · cases h2; rfl
  unfold Dispatch.dispatch afterHandshake
  dsimp only
  by_cases hp : (w.be b).mode = "TLSPASSTHROUGH"
  · rw [if_pos hp, if_pos hp]
    split
    · simp
    · simp [passthrough_unauthorized]
  · rw [if_neg hp, if_neg hp]
    by_cases ha : protos = ["acme-tls/1"] ∧ sni ≠ ""
    · rw [if_pos ha, if_pos ha]; simp
    · rw [if_neg ha, if_neg ha]
      by_cases hip : checkIP (w.be b).denyIPs (w.be b).allowIPs c.addr = true
      · rw [if_neg (c := ¬ _) (by simpa using hip), if_neg (c := ¬ _) (by simpa using hip), if_neg (c := ¬ _) (by simpa using hip)]
        refine Iff.trans ?_ key.symm
        by_cases h1 : (w.be b).mode = "CONSOLE" ∨ (w.be b).mode = "LOCAL" ∨ (w.be b).mode = "HTTP" ∨ (w.be b).mode = "HTTPS"
        · rw [if_pos h1]
          simp [handleHTTP_authorized]
        · rw [if_neg h1]
          by_cases h2 : (w.be b).mode = "TCP" ∨ (w.be b).mode = "TLS" ∨ (w.be b).mode = "QUIC"
          · rw [if_pos h2]
            simp [handleTLS_authorized]
          · exfalso
            unfold Spec.modes at hm
            simp only [List.mem_cons, List.not_mem_nil, or_false] at hm
            rcases hm with hm | hm | hm | hm | hm | hm | hm | hm
            · exact h1 (.inl hm)
            · exact h1 (.inr (.inl hm))
            · exact h1 (.inr (.inr (.inl hm)))
            · exact h1 (.inr (.inr (.inr hm)))
            · exact h2 (.inl hm)
            · exact h2 (.inr (.inl hm))
            · exact h2 (.inr (.inr hm))
            · exact hp hm
      · rw [if_pos (c := ¬ _) (by simpa using hip), if_pos (c := ¬ _) (by simpa using hip), if_pos (c := ¬ _) (by simpa using hip)]
        split
        · simp
        · split <;> simp

/-- C115 (what is recorded). With the modes of valid configurations, a connection is recorded as served, with a client
certificate or without one, exactly if the proxy decided that it is authorized with that certificate. So what a
reload looks at is neither missing for a connection that is served nor there for one that was refused. -/
theorem recorded_served (w : World) (c : Conn) (hm : ∀ n ps b, w.route n ps = .to b → (w.be b).mode ∈ Spec.modes) (crt : Option Cert) :
    (∃ o, recorded w c .served = some o ∧ o.cert = crt) ↔
    ∃ b, .authorized b crt ∈ Dispatch.handleConnection w c := by
  unfold recorded Dispatch.handleConnection
  dsimp only
  by_cases hn : (c.numOpen : Int) ≥ w.maxOpen
  · rw [if_pos hn, if_pos hn]; simp
  · rw [if_neg hn, if_neg hn]
    cases hh : c.hello with
    | none => simp
    | some x =>
      obtain ⟨sni, protos⟩ := x
      dsimp only
      unfold afterHello afterRouting
      dsimp only
      cases hr : w.route (if sni = "" then w.defaultServerName else sni) protos with
      | to b => exact (afterHandshake_iff w c _ sni protos b (hm _ _ b hr) crt).symm
      | _ => simp

/-- Non-vacuity: a client with a certificate is served by the backend that demands one, and recorded so; one that offers
no protocol of the backend is refused. -/
example : (recorded (Spec.worldOf (Config.normalise Config.Spec.env Spec.rawCert)) (Spec.conn ["imap"]) .served).map (·.cert) =
      some (some { subject := "CN=x" }) ∧
    recorded (Spec.worldOf (Config.normalise Config.Spec.env Spec.rawCert)) (Spec.conn ["h2"]) .served = none := by
  decide +kernel

end Verif.Reload
