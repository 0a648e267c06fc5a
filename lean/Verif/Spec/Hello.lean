import Verif.Model.Hello
/-
Specification used by C01 and C84: the wire format a client writes.
-/
namespace Verif.Hello

/-! ## Specification: how a client writes a ClientHello (RFC 8446 4.1.2, RFC 6066, RFC 7301) -/

namespace Spec

/-- Big-endian 16 bit integer. -/
def u16 (n : Nat) : Bytes := [UInt8.ofNat (n / 256), UInt8.ofNat (n % 256)]
/-- Vector with a one byte length. -/
def vec8 (b : Bytes) : Bytes := UInt8.ofNat b.length :: b
/-- Vector with a two byte length. -/
def vec16 (b : Bytes) : Bytes := u16 b.length ++ b

/-- The extensions a client may send. -/
inductive Ext where
  /-- server_name with one host name -/
  | sni (host : Bytes)
  /-- application_layer_protocol_negotiation -/
  | alpn (protos : List Bytes)
  /-- any other extension, opaque -/
  | other (type : Nat) (data : Bytes)
deriving DecidableEq, Repr

/-- Body of an extension. -/
def Ext.data : Ext → Bytes
  | .sni host => vec16 (0 :: vec16 host)
  | .alpn ps => vec16 (ps.map vec8).flatten
  | .other _ d => d

/-- Extension type number. -/
def Ext.type : Ext → Nat
  | .sni _ => 0
  | .alpn _ => 16
  | .other t _ => t

/-- Wire format of one extension. -/
def Ext.encode (e : Ext) : Bytes := u16 e.type ++ vec16 e.data

/-- What a client says in its hello. -/
structure Hello where
  recordVersion : UInt8 × UInt8
  version : UInt8 × UInt8
  random : Bytes
  sessionId : Bytes
  cipherSuites : Bytes
  compression : Bytes
  exts : List Ext
deriving DecidableEq, Repr

/-- The ClientHello message body. -/
def Hello.body (h : Hello) : Bytes :=
  [h.version.1, h.version.2] ++ h.random ++ vec8 h.sessionId ++ vec16 h.cipherSuites ++
    vec8 h.compression ++ vec16 (h.exts.map Ext.encode).flatten

/-- The handshake message: type 1, 24 bit length, body. -/
def Hello.message (h : Hello) : Bytes :=
  [1, UInt8.ofNat (h.body.length / 65536), UInt8.ofNat (h.body.length / 256 % 256),
    UInt8.ofNat (h.body.length % 256)] ++ h.body

/-- The TLS record. -/
def Hello.record (h : Hello) : Bytes :=
  [0x16, h.recordVersion.1, h.recordVersion.2] ++ vec16 h.message

/-- An extension that fits its length fields. -/
def Ext.WF : Ext → Prop
  | .sni host => host.length + 5 < 65536
  | .alpn ps => (∀ p ∈ ps, p.length < 256) ∧ (ps.map vec8).flatten.length + 2 < 65536
  | .other t d => t ≠ 0 ∧ t ≠ 16 ∧ t < 65536 ∧ d.length < 65536

/-- The host name an extension carries. -/
def Ext.host? : Ext → Option Bytes
  | .sni n => some n
  | _ => none

/-- The protocol list an extension carries. -/
def Ext.alpn? : Ext → Option (List Bytes)
  | .alpn ps => some ps
  | _ => none

/-- The host names in the hello. -/
def Hello.hosts (h : Hello) : List Bytes :=
  h.exts.filterMap Ext.host?

/-- The protocols offered, in order. -/
def Hello.protos (h : Hello) : List Bytes :=
  (h.exts.filterMap Ext.alpn?).flatten

/-- Well-formed hello fitting in one record; at most one server name (RFC 6066). -/
structure Hello.WF (h : Hello) : Prop where
  random : h.random.length = 32
  sessionId : h.sessionId.length < 256
  cipherSuites : h.cipherSuites.length < 65536
  compression : h.compression.length < 256
  exts : ∀ e ∈ h.exts, e.WF
  oneName : h.hosts.length ≤ 1
  fits : h.message.length ≤ 16384

end Spec

/-- Specification: a TLS alert record (RFC 8446 5.1, 6): content type 21, legacy version
3.3, two byte length, then alert level and description. -/
def Spec.isFatalAlert (b : Bytes) (desc : UInt8) : Prop :=
  ∃ payload : Bytes, b = 21 :: 3 :: 3 :: Spec.vec16 payload ∧ payload = [2, desc]

end Verif.Hello
