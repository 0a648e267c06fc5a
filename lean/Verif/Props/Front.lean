import Verif.Model.Front
import Verif.Props.Dispatch
import Verif.Props.HelloSound
/-
C113: from the first byte to the backend.
-/
namespace Verif.Front

open Verif.Dispatch (IP Cidr World Client Event)
open Verif.Hello (Bytes)
open Verif.Hello.Spec (GHello OneName vec16)

/-! ## Specification -/

/-- The operator has configured that this peer may speak for others. -/
def Spec.Trusted (nets : List Cidr) (peer : Option IP) : Prop :=
  ∃ ip, peer = some ip ∧ ∃ n ∈ nets, Dispatch.Spec.member n ip

/-- How the beginning of a connection is to be read: the address of the client, and what it says. -/
inductive Spec.Reads (read : Bytes → Pre) (nets : List Cidr) (peer : Option IP) (bytes : Bytes) :
    Option IP → Bytes → Prop
  | untrusted : ¬ Spec.Trusted nets peer → Spec.Reads read nets peer bytes peer bytes
  | plain : Spec.Trusted nets peer → read bytes = .plain → Spec.Reads read nets peer bytes peer bytes
  | noAddress {rest} : Spec.Trusted nets peer → read bytes = .noAddress rest →
      Spec.Reads read nets peer bytes peer rest
  | proxy {src rest} : Spec.Trusted nets peer → read bytes = .proxy src rest →
      Spec.Reads read nets peer bytes src rest

/-- The rules of a backend admit an address. -/
def Spec.Admits (deny allow : Option (List Cidr)) (addr : Option IP) : Prop :=
  ∃ ip, addr = some ip ∧ (∀ l, deny = some l → ∀ n ∈ l, ¬ Dispatch.Spec.member n ip) ∧
    (∀ l, allow = some l → ∃ n ∈ l, Dispatch.Spec.member n ip)

/-! ## Proof -/

theorem accept_iff (nets : List Cidr) (peer : Option IP) :
    acceptProxyHeader nets peer = true ↔ Spec.Trusted nets peer := by
  unfold acceptProxyHeader Spec.Trusted
  cases peer with
  | none => simp
  | some ip => simp [List.any_eq_true, Dispatch.contains_iff]

theorem unwrap_reads {read : Bytes → Pre} {nets : List Cidr} {peer addr : Option IP} {bytes rest : Bytes}
    (h : unwrap read nets peer bytes = (addr, some rest)) : Spec.Reads read nets peer bytes addr rest := by
  unfold unwrap at h
  split at h
  · rename_i ha
    rw [accept_iff] at ha
    split at h <;> cases h
    · rename_i hr; exact .plain ha hr
    · rename_i hr; exact .noAddress ha hr
    · rename_i hr; exact .proxy ha hr
  · rename_i ha
    rw [accept_iff] at ha
    cases h
    exact .untrusted ha

theorem hello_some {bytes : Option Bytes} {sni : String} {protos : List String} (h : hello bytes = some (sni, protos)) :
    ∃ b g trailing, bytes = some b ∧ GHello.WF g ∧ OneName g.names ∧
      b = [0x16, g.recordVersion.1, g.recordVersion.2] ++ vec16 g.message ++ trailing ∧
      sni = name (g.names.getLastD []) ∧ protos = g.protos.map name := by
  unfold hello at h
  split at h
  · cases h
  · rename_i b
    split at h
    · rename_i r hr
      obtain ⟨g, t, h1, h2, h3, h4, h5⟩ := (Hello.hello_exact b r).mp hr
      cases h
      exact ⟨b, g, t, rfl, h1, h2, h3, by rw [h4], by rw [h5]⟩
    · cases h

/-- C113. Whatever arrives from whomever: if a server of a backend is contacted, or its HTTP handler gets the
connection, then the bytes, after the PROXY header that only a trusted peer may send, begin with a
well-formed ClientHello; the backend is the one for the name and the protocols in it (for the default
name, if it has none); and its IP rules admit the client's address, which is the address of the TCP
connection, unless a trusted peer announces another one. -/
theorem front_admission (read : Bytes → Pre) (nets : List Cidr) (w : World) (a : Arrival)
    (e : Event) (b : Nat) (h : e ∈ handle read nets w a) (he : Dispatch.Spec.contact e = some b) :
    ∃ addr rest g trailing, Spec.Reads read nets a.peer a.bytes addr rest ∧
      GHello.WF g ∧ OneName g.names ∧
      rest = [0x16, g.recordVersion.1, g.recordVersion.2] ++ vec16 g.message ++ trailing ∧
      w.route (if name (g.names.getLastD []) = "" then w.defaultServerName else name (g.names.getLastD []))
        (g.protos.map name) = .to b ∧
      Spec.Admits (w.be b).denyIPs (w.be b).allowIPs addr ∧ (a.numOpen : Int) < w.maxOpen := by
  obtain ⟨pre, post, hp⟩ := List.append_of_mem h
  unfold handle at hp
  obtain ⟨hn, sni, protos, hh, hr, hip, -⟩ := Dispatch.no_contact_before_checks w _ pre post e b hp he
  dsimp only at hh hip hn
  obtain ⟨rest, g, t, hb, h1, h2, h3, rfl, rfl⟩ := hello_some hh
  refine ⟨_, rest, g, t, unwrap_reads (Prod.ext rfl hb), h1, h2, h3, hr, ?_, hn⟩
  exact (Dispatch.ip_rules _ _ _).mp hip

/-- C113. What a peer that is not trusted says of addresses has no effect; if it sends a PROXY header, its
connection is closed and no backend is contacted. -/
theorem untrusted_header (read : Bytes → Pre) (nets : List Cidr) (w : World) (a : Arrival)
    (h : ¬ Spec.Trusted nets a.peer) :
    (∀ read', handle read' nets w a = handle read nets w a) ∧
    (∀ c rest, a.bytes = c :: rest → c ≠ 0x16 →
      handle read nets w a = [.closed] ∨ handle read nets w a = [.alertCloseNotify, .closed]) := by
  have ha : acceptProxyHeader nets a.peer = false := by
    rw [← Bool.not_eq_true, accept_iff]; exact h
  have hu : ∀ read', unwrap read' nets a.peer a.bytes = (a.peer, some a.bytes) := by
    intro read'; unfold unwrap; rw [ha]; rfl
  refine ⟨fun read' => ?_, ?_⟩
  · unfold handle; rw [hu, hu]
  · intro c rest hc hne
    have hh : hello (some a.bytes) = none := by
      cases hx : hello (some a.bytes) with
      | none => rfl
      | some p =>
        obtain ⟨b, g, t, hb, -, -, hb', -⟩ := hello_some (sni := p.1) (protos := p.2) hx
        cases hb
        rw [hc] at hb'
        simp at hb'
        exact absurd hb'.1 hne
    unfold handle
    rw [hu]
    dsimp only
    rw [hh]
    unfold Dispatch.handleConnection
    dsimp only
    split
    · exact .inr rfl
    · exact .inl rfl

theorem reads_unwrap {read : Bytes → Pre} {nets : List Cidr} {peer addr : Option IP} {bytes rest : Bytes}
    (h : Spec.Reads read nets peer bytes addr rest) : unwrap read nets peer bytes = (addr, some rest) := by
  unfold unwrap
  cases h with
  | untrusted ht =>
    rw [if_neg (by rw [accept_iff]; exact ht)]
  | plain ht hr => rw [if_pos ((accept_iff _ _).mpr ht), hr]
  | noAddress ht hr => rw [if_pos ((accept_iff _ _).mpr ht), hr]
  | proxy ht hr => rw [if_pos ((accept_iff _ _).mpr ht), hr]

/-- C113, conversely: a client whose bytes read as a well-formed ClientHello for a passthrough backend that
admits its address, within the limit of connections, is connected to that backend. -/
theorem front_passthrough (read : Bytes → Pre) (nets : List Cidr) (w : World) (a : Arrival) (b : Nat)
    (addr : Option IP) (rest : Bytes) (g : GHello) (trailing : Bytes)
    (hr : Spec.Reads read nets a.peer a.bytes addr rest) (hg : GHello.WF g) (h1 : OneName g.names)
    (hb : rest = [0x16, g.recordVersion.1, g.recordVersion.2] ++ vec16 g.message ++ trailing)
    (hroute : w.route (if name (g.names.getLastD []) = "" then w.defaultServerName else name (g.names.getLastD []))
        (g.protos.map name) = .to b)
    (ha : Spec.Admits (w.be b).denyIPs (w.be b).allowIPs addr) (hn : (a.numOpen : Int) < w.maxOpen)
    (hm : (w.be b).mode = "TLSPASSTHROUGH") (hw : a.waitOK = true) (hd : a.dialOK = true) :
    handle read nets w a = [.ipAllowed b, .dial b, .closed] := by
  have hh : hello (some rest) = some (name (g.names.getLastD []), g.protos.map name) := by
    unfold hello
    dsimp only
    rw [(Hello.hello_exact rest ⟨g.names.getLastD [], g.protos⟩).mpr ⟨g, trailing, hg, h1, hb, rfl, rfl⟩]
  unfold handle
  rw [reads_unwrap hr]
  dsimp only
  rw [hh]
  unfold Dispatch.handleConnection
  dsimp only
  rw [if_neg (by omega), hroute]
  dsimp only
  unfold Dispatch.dispatch
  dsimp only
  rw [if_pos hm, (Dispatch.ip_rules _ _ _).mpr ha]
  simp [Dispatch.handlePassthrough, hw, hd]

/-! ## Examples -/

/-- One passthrough backend for the name "a" that denies 10.0.0.0/8. -/
def Spec.world : World where
  route := fun n _ => if n = "a" then .to 0 else .unexpectedSNI
  be := fun _ => { mode := "TLSPASSTHROUGH", denyIPs := some [⟨[10, 0, 0, 0], 8⟩] }
  isRevoked := fun _ _ => false
  ocspOK := fun _ => true
  defaultServerName := "a"
  maxOpen := 10

/-- A PROXY header of one byte and an address, for the examples. -/
def Spec.read : Bytes → Pre
  | 80 :: a :: b :: c :: d :: rest => .proxy (some [a, b, c, d]) rest
  | _ => .plain

def Spec.helloBytes : Bytes := [0x16, 3, 1] ++ vec16 Hello.Spec.sampleG.message

/-- Non-vacuity: a client of network 10 is refused, and so is one that claims to be another, and admitted
if a trusted peer says so. -/
example : Spec.Trusted [⟨[192, 168, 0, 0], 16⟩] (some [192, 168, 1, 1]) ∧
    ¬ Spec.Trusted [⟨[192, 168, 0, 0], 16⟩] (some [10, 1, 1, 1]) ∧
    (handle Spec.read [⟨[192, 168, 0, 0], 16⟩] Spec.world
      { peer := some [10, 1, 1, 1], bytes := Spec.helloBytes, numOpen := 1, client := ⟨"", [], none, true, true⟩ } =
      [.alertUnrecognizedName, .closed]) ∧
    handle Spec.read [⟨[192, 168, 0, 0], 16⟩] Spec.world
      { peer := some [10, 1, 1, 1], bytes := 80 :: 8 :: 8 :: 8 :: 8 :: Spec.helloBytes, numOpen := 1, client := ⟨"", [], none, true, true⟩ } =
      [.closed] ∧
    handle Spec.read [⟨[192, 168, 0, 0], 16⟩] Spec.world
      { peer := some [192, 168, 1, 1], bytes := 80 :: 8 :: 8 :: 8 :: 8 :: Spec.helloBytes, numOpen := 1, client := ⟨"", [], none, true, true⟩ } =
      [.ipAllowed 0, .dial 0, .closed] := by
  refine ⟨(accept_iff _ _).mp (by decide), fun h => absurd ((accept_iff _ _).mpr h) (by decide), ?_, ?_, ?_⟩
  · decide +kernel
  · decide +kernel
  · decide +kernel

end Verif.Front
