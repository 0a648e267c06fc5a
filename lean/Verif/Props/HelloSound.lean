import Verif.Props.Hello
/-
C01, the converse: what the proxy accepts as a ClientHello, exactly.
-/
namespace Verif.Hello

open Spec

/-! ## Specification: the language of accepted first records -/

namespace Spec

/-- An extension as the proxy understands it. A server name list may hold several names of type
host_name; bytes after the inner list are tolerated. -/
inductive GExt where
  | sni (names : List Bytes) (junk : Bytes)
  | alpn (protos : List Bytes) (junk : Bytes)
  | other (type : Nat) (data : Bytes)
deriving DecidableEq, Repr

/-- Wire format of the extension data. -/
def GExt.data : GExt → Bytes
  | .sni ns j => vec16 (ns.map fun n => 0 :: vec16 n).flatten ++ j
  | .alpn ps j => vec16 (ps.map vec8).flatten ++ j
  | .other _ d => d

/-- Extension type number. -/
def GExt.type : GExt → Nat
  | .sni _ _ => 0
  | .alpn _ _ => 16
  | .other t _ => t

/-- Wire format of an extension. -/
def GExt.encode (e : GExt) : Bytes := u16 e.type ++ vec16 e.data

/-- The names carried by an extension. -/
def GExt.names : GExt → List Bytes
  | .sni ns _ => ns
  | _ => []

/-- The protocols carried by an extension. -/
def GExt.protos : GExt → List Bytes
  | .alpn ps _ => ps
  | _ => []

/-- Every length field can hold its length. -/
def GExt.WF (e : GExt) : Prop :=
  e.type < 65536 ∧ e.data.length < 65536 ∧
  match e with
  | .sni ns _ => (∀ n ∈ ns, n.length < 65536) ∧
      (ns.map fun n => 0 :: vec16 n).flatten.length < 65536
  | .alpn ps _ => (∀ p ∈ ps, p.length < 256) ∧ (ps.map vec8).flatten.length < 65536
  | .other t _ => t ≠ 0 ∧ t ≠ 16

/-- A handshake message of type client_hello. Its 24-bit length field is not checked and bytes
after the extensions are tolerated. -/
structure GHello where
  recordVersion : UInt8 × UInt8
  msgLen : UInt8 × UInt8 × UInt8
  versionRandom : Bytes
  sessionId : Bytes
  cipherSuites : Bytes
  compression : Bytes
  exts : List GExt
  junk : Bytes

/-- The handshake message. -/
def GHello.message (g : GHello) : Bytes :=
  [1, g.msgLen.1, g.msgLen.2.1, g.msgLen.2.2] ++ (g.versionRandom ++ (vec8 g.sessionId ++
    (vec16 g.cipherSuites ++ (vec8 g.compression ++
      (vec16 (g.exts.map GExt.encode).flatten ++ g.junk)))))

/-- All names and all protocols, in order. -/
def GHello.names (g : GHello) : List Bytes := g.exts.flatMap GExt.names
def GHello.protos (g : GHello) : List Bytes := g.exts.flatMap GExt.protos

structure GHello.WF (g : GHello) : Prop where
  versionRandom : g.versionRandom.length = 34
  sessionId : g.sessionId.length < 256
  cipherSuites : g.cipherSuites.length < 65536
  compression : g.compression.length < 256
  exts : ∀ e ∈ g.exts, e.WF
  block : (g.exts.map GExt.encode).flatten.length < 65536
  fits : g.message.length ≤ 16384

/-- No name follows a non-empty name. -/
def OneName (ns : List Bytes) : Prop := ∀ n ∈ ns.dropLast, n = []

end Spec

/-! ## Reading is the inverse of writing -/

theorem readU16_some {s r : Bytes} {n : Nat} (h : readU16 s = some (n, r)) :
    n < 65536 ∧ s = u16 n ++ r := by
  match s, h with
  | [], h => simp [readU16] at h
  | [_], h => simp [readU16] at h
  | a :: b :: s, h =>
    simp only [readU16, Option.some.injEq, Prod.mk.injEq] at h
    obtain ⟨h1, h2⟩ := h
    have ha := a.toNat_lt
    have hb := b.toNat_lt
    subst h1; subst h2
    refine ⟨by omega, ?_⟩
    have e1 : (a.toNat * 256 + b.toNat) / 256 = a.toNat := by omega
    have e2 : (a.toNat * 256 + b.toNat) % 256 = b.toNat := by omega
    simp only [u16, e1, e2, UInt8.ofNat_toNat, List.cons_append, List.nil_append]

theorem readN_some {s a r : Bytes} {n : Nat} (h : readN n s = some (a, r)) :
    a.length = n ∧ s = a ++ r := by
  unfold readN at h
  split at h
  · cases h
  · simp only [Option.some.injEq, Prod.mk.injEq] at h
    obtain ⟨rfl, rfl⟩ := h
    exact ⟨by simp; omega, (List.take_append_drop n s).symm⟩

theorem readU16Pref_some {s a r : Bytes} (h : readU16Pref s = some (a, r)) :
    a.length < 65536 ∧ s = vec16 a ++ r := by
  unfold readU16Pref at h
  split at h
  · rename_i n s' h1
    obtain ⟨hn, rfl⟩ := readU16_some h1
    obtain ⟨ha, rfl⟩ := readN_some h
    subst ha
    exact ⟨hn, by simp [vec16]⟩
  · cases h

theorem readU8Pref_some {s a r : Bytes} (h : readU8Pref s = some (a, r)) :
    a.length < 256 ∧ s = vec8 a ++ r := by
  cases s with
  | nil => simp [readU8Pref, readU8] at h
  | cons b s =>
    simp only [readU8Pref, readU8] at h
    obtain ⟨ha, rfl⟩ := readN_some h
    have hb := b.toNat_lt
    refine ⟨by omega, ?_⟩
    simp [vec8, ha, UInt8.ofNat_toNat]

theorem skip_some {s r : Bytes} {n : Nat} (h : skip n s = some r) :
    ∃ a, a.length = n ∧ s = a ++ r := by
  unfold skip at h
  split at h
  · cases h
  · simp only [Option.some.injEq] at h
    subst h
    exact ⟨s.take n, by simp; omega, (List.take_append_drop n s).symm⟩

theorem readU8_some {s r : Bytes} {n : Nat} (h : readU8 s = some (n, r)) :
    n < 256 ∧ s = UInt8.ofNat n :: r := by
  cases s with
  | nil => simp [readU8] at h
  | cons b s =>
    simp only [readU8, Option.some.injEq, Prod.mk.injEq] at h
    obtain ⟨rfl, rfl⟩ := h
    exact ⟨b.toNat_lt, by simp [UInt8.ofNat_toNat]⟩

/-- Adding names to a list whose last element is `name` (or to no list, `name = []`). -/
theorem parseNames_some (s name res : Bytes) :
    parseNames s name = some res ↔
      ∃ ns : List Bytes, s = (ns.map fun n => (0 : UInt8) :: vec16 n).flatten ∧
        (∀ n ∈ ns, n.length < 65536) ∧ OneName (name :: ns) ∧ res = (name :: ns).getLast (by simp) := by
  induction hl : s.length using Nat.strongRecOn generalizing s name with
  | _ k ih =>
    subst hl
    cases s with
    | nil =>
      rw [parseNames_nil]
      constructor
      · intro h; cases h
        exact ⟨[], rfl, by simp, by simp [OneName], rfl⟩
      · rintro ⟨ns, h1, -, -, h4⟩
        cases ns with
        | nil => rw [h4]; rfl
        | cons n ns => simp at h1
    | cons t s' =>
      unfold parseNames
      by_cases ht : t = 0
      · rw [if_neg (by simp [ht])]
        split
        · rename_i h0
          constructor
          · intro h; cases h
          · rintro ⟨ns, h1, h2, -, -⟩
            cases ns with
            | nil => simp at h1
            | cons n ns =>
              simp only [List.map_cons, List.flatten_cons, List.cons_append, List.cons.injEq] at h1
              have := readU16Pref_enc (h2 n (by simp))
                (ns.map fun n => (0 : UInt8) :: vec16 n).flatten
              rw [h1.2] at h0
              simp only [vec16, u16, List.cons_append, List.nil_append, List.append_assoc] at h0 this
              rw [this] at h0; cases h0
        · rename_i host rest h0
          obtain ⟨hlen, hs⟩ := readU16Pref_some h0
          have hlt := readU16Pref_lt h0
          have hih := ih rest.length (by simp; omega) rest host rfl
          have hone : OneName (name :: host :: (List.replicate 0 [])) ↔ name = [] := by
            simp [OneName]
          by_cases hn : name = []
          · rw [if_neg (by simp [hn]), hih]
            constructor
            · rintro ⟨ns, h1, h2, h3, h4⟩
              refine ⟨host :: ns, ?_, ?_, ?_, ?_⟩
              · rw [hs, h1, ht]; simp
              · simpa [hlen] using h2
              · simp only [OneName, List.dropLast_cons_cons] at h3 ⊢
                intro n hmem
                rcases List.mem_cons.mp hmem with h | h
                · rw [h, hn]
                · exact h3 n h
              · rw [h4, List.getLast_cons_cons]
            · rintro ⟨ns, h1, h2, h3, h4⟩
              cases ns with
              | nil => simp at h1
              | cons n ns =>
                have e := readU16Pref_enc (h2 n (by simp))
                  (ns.map fun n => (0 : UInt8) :: vec16 n).flatten
                simp only [List.map_cons, List.flatten_cons, List.cons_append, List.cons.injEq] at h1
                rw [h1.2] at h0
                simp only [vec16, u16, List.cons_append, List.nil_append, List.append_assoc] at h0 e
                rw [e] at h0
                cases h0
                refine ⟨ns, rfl, fun m hm => h2 m (by simp [hm]), ?_, ?_⟩
                · simp only [OneName, List.dropLast_cons_cons] at h3 ⊢
                  intro m hm; exact h3 m (by simp [hm])
                · rw [h4, List.getLast_cons_cons]
          · rw [if_pos hn]
            constructor
            · intro h; cases h
            · rintro ⟨ns, h1, h2, h3, h4⟩
              cases ns with
              | nil => simp at h1
              | cons n ns => exact absurd (h3 name (by simp)) hn
      · rw [if_pos ht]
        constructor
        · intro h; cases h
        · rintro ⟨ns, h1, -, -, -⟩
          cases ns with
          | nil => simp at h1
          | cons n ns => simp at h1; exact absurd h1.1 ht

theorem parseProtos_some (s : Bytes) (acc res : List Bytes) :
    parseProtos s acc = some res ↔
      ∃ ps : List Bytes, s = (ps.map vec8).flatten ∧ (∀ p ∈ ps, p.length < 256) ∧
        res = acc ++ ps := by
  constructor
  · intro h
    induction hl : s.length using Nat.strongRecOn generalizing s acc with
    | _ k ih =>
      subst hl
      cases s with
      | nil => rw [parseProtos_nil] at h; cases h; exact ⟨[], rfl, by simp, by simp⟩
      | cons t s' =>
        cases h0 : readU8Pref (t :: s') with
        | none =>
          unfold parseProtos at h
          split at h
          · cases h
          · rename_i h1; rw [h0] at h1; cases h1
        | some pr =>
          obtain ⟨p, r⟩ := pr
          rw [parseProtos_step h0] at h
          obtain ⟨hp, hs⟩ := readU8Pref_some h0
          obtain ⟨ps, h1, h2, h3⟩ := ih r.length (readU8Pref_lt h0) r _ h rfl
          exact ⟨p :: ps, by rw [hs, h1]; simp, by simpa [hp] using h2, by rw [h3]; simp⟩
  · rintro ⟨ps, rfl, h2, rfl⟩
    exact parseProtos_enc ps acc h2

theorem applyExt_some {t : Nat} {d : Bytes} {h h' : ClientHello} (ht : t < 65536)
    (hd : d.length < 65536) (ha : applyExt t d h = some h') :
    ∃ e : GExt, e.WF ∧ e.type = t ∧ e.data = d ∧ OneName (h.serverName :: e.names) ∧
      h'.serverName = (h.serverName :: e.names).getLast (by simp) ∧
      h'.alpnProtos = h.alpnProtos ++ e.protos := by
  unfold applyExt at ha
  split at ha
  · rename_i h0; subst h0
    split at ha
    · cases ha
    · rename_i l j hr
      obtain ⟨hl, rfl⟩ := readU16Pref_some hr
      split at ha
      · cases ha
      · rename_i n hn
        cases ha
        obtain ⟨ns, rfl, h2, h3, h4⟩ := (parseNames_some _ _ _).mp hn
        exact ⟨.sni ns j, ⟨ht, hd, h2, hl⟩, rfl, rfl, h3, h4, by simp [GExt.protos]⟩
  · rename_i h0
    split at ha
    · rename_i h16; subst h16
      split at ha
      · cases ha
      · rename_i l j hr
        obtain ⟨hl, rfl⟩ := readU16Pref_some hr
        split at ha
        · cases ha
        · rename_i ps hp
          cases ha
          obtain ⟨ps, rfl, h2, rfl⟩ := (parseProtos_some _ _ _).mp hp
          exact ⟨.alpn ps j, ⟨ht, hd, h2, hl⟩, rfl, rfl, by simp [OneName, GExt.names],
            by simp [GExt.names], rfl⟩
    · rename_i h16
      cases ha
      exact ⟨.other t d, ⟨ht, hd, h0, h16⟩, rfl, rfl, by simp [OneName, GExt.names],
        by simp [GExt.names], by simp [GExt.protos]⟩

theorem applyExt_of (e : GExt) (he : e.WF) (h : ClientHello)
    (h1 : OneName (h.serverName :: e.names)) :
    applyExt e.type e.data h = some
      ⟨(h.serverName :: e.names).getLast (by simp), h.alpnProtos ++ e.protos⟩ := by
  cases e with
  | sni ns j =>
    obtain ⟨-, -, h2, h3⟩ := he
    have e := readU16Pref_enc h3 j
    have hp := (parseNames_some (ns.map fun n => (0 : UInt8) :: vec16 n).flatten h.serverName _).mpr
      ⟨ns, rfl, h2, h1, rfl⟩
    simp only [applyExt, GExt.type, GExt.data, ↓reduceIte, vec16, u16, List.cons_append,
      List.nil_append] at e hp ⊢
    rw [e]
    simp only [hp]
    simp [GExt.names, GExt.protos]
  | alpn ps j =>
    obtain ⟨-, -, h2, h3⟩ := he
    have e := readU16Pref_enc h3 j
    have hp := parseProtos_enc ps h.alpnProtos h2
    simp only [applyExt, GExt.type, GExt.data, ↓reduceIte, vec16, u16, List.cons_append,
      List.nil_append] at e hp ⊢
    rw [e]
    simp [hp, GExt.names, GExt.protos]
  | other t d =>
    obtain ⟨-, -, h0, h16⟩ := he
    simp [applyExt, GExt.type, GExt.data, h0, h16, GExt.names, GExt.protos]

theorem oneName_append {a b : List Bytes} {x : Bytes} :
    OneName (x :: (a ++ b)) ↔ OneName (x :: a) ∧ OneName ((x :: a).getLast (by simp) :: b) := by
  induction a generalizing x with
  | nil => simp [OneName]
  | cons y a ih =>
    have e : ∀ (z : Bytes) (l : List Bytes), OneName (z :: y :: l) ↔ z = [] ∧ OneName (y :: l) := by
      intro z l; simp [OneName]
    rw [List.cons_append, e, e, ih, List.getLast_cons_cons]
    constructor
    · rintro ⟨h1, h2, h3⟩; exact ⟨⟨h1, h2⟩, h3⟩
    · rintro ⟨⟨h1, h2⟩, h3⟩; exact ⟨h1, h2, h3⟩

theorem getLast_append' {a b : List Bytes} {x : Bytes} :
    (x :: (a ++ b)).getLast (by simp) = ((x :: a).getLast (by simp) :: b).getLast (by simp) := by
  induction a generalizing x with
  | nil => rfl
  | cons y a ih => simp only [List.cons_append, List.getLast_cons_cons]; exact ih

theorem parseExts_some (s : Bytes) (h h' : ClientHello) :
    parseExts s h = some h' ↔
      ∃ es : List GExt, s = (es.map GExt.encode).flatten ∧ (∀ e ∈ es, e.WF) ∧
        OneName (h.serverName :: es.flatMap GExt.names) ∧
        h'.serverName = (h.serverName :: es.flatMap GExt.names).getLast (by simp) ∧
        h'.alpnProtos = h.alpnProtos ++ es.flatMap GExt.protos := by
  constructor
  · intro hp
    induction hl : s.length using Nat.strongRecOn generalizing s h with
    | _ k ih =>
      subst hl
      cases s with
      | nil =>
        rw [parseExts_nil] at hp; cases hp
        exact ⟨[], rfl, by simp, by simp [OneName], by simp, by simp⟩
      | cons b s =>
        cases hr : readExt (b :: s) with
        | none =>
          unfold parseExts at hp
          split at hp
          · cases hp
          · rename_i h1; rw [hr] at h1; cases h1
        | some tdr =>
          obtain ⟨t, d, r⟩ := tdr
          have hr0 := hr
          unfold readExt at hr
          split at hr
          · cases hr
          · rename_i t' s1 h1
            obtain ⟨ht, hs1⟩ := readU16_some h1
            split at hr
            · cases hr
            · rename_i d' r' h2
              cases hr
              obtain ⟨hd, rfl⟩ := readU16Pref_some h2
              cases ha : applyExt t d h with
              | none =>
                unfold parseExts at hp
                split at hp
                · cases hp
                · rename_i h1; rw [hr0] at h1; cases h1; rw [ha] at hp; cases hp
              | some hh =>
                rw [parseExts_step hr0 ha] at hp
                obtain ⟨e, hw, rfl, rfl, h3, h4, h5⟩ := applyExt_some ht hd ha
                obtain ⟨es, rfl, g2, g3, g4, g5⟩ := ih r.length (readExt_lt hr0) r hh hp rfl
                refine ⟨e :: es, ?_, ?_, ?_, ?_, ?_⟩
                · rw [hs1]; simp [GExt.encode]
                · intro x hx
                  rcases List.mem_cons.mp hx with rfl | hx
                  · exact hw
                  · exact g2 x hx
                · rw [List.flatMap_cons, oneName_append]
                  rw [h4] at g3
                  exact ⟨h3, g3⟩
                · rw [g4]
                  simp only [List.flatMap_cons]
                  rw [getLast_append']
                  simp only [h4]
                · rw [g5, h5]; simp
  · rintro ⟨es, rfl, hw, h3, h4, h5⟩
    induction es generalizing h with
    | nil =>
      cases h'; cases h
      simp at h4 h5
      simp [parseExts_nil, h4, h5]
    | cons e es ih =>
      rw [List.flatMap_cons, oneName_append] at h3
      have he := hw e (by simp)
      have hr : readExt (e.encode ++ (es.map GExt.encode).flatten) =
          some (e.type, e.data, (es.map GExt.encode).flatten) := by
        have := readU16Pref_enc he.2.1 (es.map GExt.encode).flatten
        simp only [readExt, GExt.encode, u16, vec16, List.cons_append, List.nil_append,
          List.append_assoc, readU16_enc he.1, this]
      simp only [List.map_cons, List.flatten_cons]
      rw [parseExts_step hr (applyExt_of e he h h3.1)]
      refine ih _ (fun x hx => hw x (by simp [hx])) h3.2 ?_ ?_
      · rw [h4]
        simp only [List.flatMap_cons]
        rw [getLast_append']
      · rw [h5]; simp

theorem helloExtensions_some {m ext : Bytes} (h : helloExtensions m = some ext) :
    ∃ (a vr sid cs cm junk : Bytes), a.length = 4 ∧ vr.length = 34 ∧ sid.length < 256 ∧
      cs.length < 65536 ∧ cm.length < 256 ∧ ext.length < 65536 ∧
      m = a ++ (vr ++ (vec8 sid ++ (vec16 cs ++ (vec8 cm ++ (vec16 ext ++ junk))))) := by
  unfold helloExtensions at h
  simp only [Option.bind_eq_bind, Option.bind_eq_some_iff, Option.pure_def] at h
  obtain ⟨s1, h1, s2, h2, ⟨n3, s3⟩, h3, s4, h4, ⟨n5, s5⟩, h5, s6, h6, ⟨n7, s7⟩, h7, s8, h8,
    ⟨e9, s9⟩, h9, h10⟩ := h
  simp only [Option.some.injEq] at h10
  subst h10
  obtain ⟨a, ha, rfl⟩ := skip_some h1
  obtain ⟨vr, hvr, rfl⟩ := skip_some h2
  obtain ⟨hn3, rfl⟩ := readU8_some h3
  obtain ⟨sid, hsid, e4⟩ := skip_some h4
  obtain ⟨hn5, rfl⟩ := readU16_some h5
  obtain ⟨cs, hcs, e6⟩ := skip_some h6
  obtain ⟨hn7, rfl⟩ := readU8_some h7
  obtain ⟨cm, hcm, e8⟩ := skip_some h8
  obtain ⟨he, rfl⟩ := readU16Pref_some h9
  dsimp only at e4 e6 e8 hsid hcs hcm
  subst e4 hsid e6 hcs e8 hcm
  exact ⟨a, vr, sid, cs, cm, s9, ha, hvr, hn3, hn5, hn7, he, by simp [vec8, vec16]⟩

theorem helloExtensions_of (g : GHello) (hg : g.WF) :
    helloExtensions g.message = some (g.exts.map GExt.encode).flatten := by
  have hE := readU16Pref_enc hg.block g.junk
  unfold helloExtensions GHello.message
  rw [skip_append' _ _ (by simp)]
  simp only [Option.bind_eq_bind, Option.bind_some]
  rw [skip_append' _ _ hg.versionRandom]
  simp only [Option.bind_some, vec8, vec16, u16, List.cons_append, List.nil_append,
    readU8, toNat_ofNat_lt hg.sessionId, skip_append, readU16_enc hg.cipherSuites,
    toNat_ofNat_lt hg.compression, hE]
  rfl

/-! ## C01, exactly -/

/-- C01 (exact acceptance). A connection is routed with a given server name and ALPN list if
and only if its first record is a handshake record of at most 16384 bytes holding a client_hello
whose concatenated server names have no name after a non-empty one, end in that name (empty when
there is none), and whose concatenated ALPN protocols are that list. -/
theorem hello_exact (st : Bytes) (r : ClientHello) :
    (peekClientHello st).res = .ok r ↔
      ∃ (g : GHello) (trailing : Bytes), g.WF ∧ OneName g.names ∧
        st = [0x16, g.recordVersion.1, g.recordVersion.2] ++ vec16 g.message ++ trailing ∧
        r.serverName = g.names.getLastD [] ∧ r.alpnProtos = g.protos := by
  have hlast : ∀ l : List Bytes, ([] :: l).getLast (by simp) = l.getLastD [] := by
    intro l; cases l <;> rfl
  have hon : ∀ l : List Bytes, OneName ([] :: l) ↔ OneName l := by
    intro l
    cases l with
    | nil => simp [OneName]
    | cons x l => simp [OneName]
  constructor
  · intro h
    unfold peekClientHello at h
    split at h
    · rename_i b0 v1 v2 b3 b4 rest
      split at h
      · cases h
      · rename_i h0
        simp only at h
        split at h
        · cases h
        · rename_i hbig
          split at h
          · cases h
          · rename_i hlen
            simp only at h
            unfold parseBody at h
            split at h
            · cases h
            · rename_i b tl hm
              split at h
              · cases h
              · rename_i hb
                split at h
                · cases h
                · rename_i ext hx
                  split at h
                  · cases h
                  · rename_i r' hp
                    cases h
                    obtain ⟨a, vr, sid, cs, cm, junk, ha, hvr, h1, h2, h3, h4, h5⟩ :=
                      helloExtensions_some hx
                    obtain ⟨es, rfl, g2, g3, g4, g5⟩ := (parseExts_some _ _ _).mp hp
                    have hb1 : b = 1 := Classical.byContradiction hb
                    match a, ha, h5 with
                    | [a0, a1, a2, a3], _, h5 =>
                    have ha0 : a0 = 1 := by
                      rw [hm] at h5
                      simp only [List.cons_append, List.cons.injEq] at h5
                      rw [← h5.1, hb1]
                    subst ha0
                    have hmsg : List.take (b3.toNat * 256 + b4.toNat) rest =
                        GHello.message ⟨(v1, v2), (a1, a2, a3), vr, sid, cs, cm, es, junk⟩ := by
                      rw [h5]; rfl
                    have hml := congrArg List.length hmsg
                    rw [List.length_take, Nat.min_eq_left (by omega)] at hml
                    refine ⟨⟨(v1, v2), (a1, a2, a3), vr, sid, cs, cm, es, junk⟩,
                      rest.drop (b3.toNat * 256 + b4.toNat), ⟨hvr, h1, h2, h3, g2, h4, ?_⟩,
                      (hon _).mp g3, ?_, ?_, ?_⟩
                    · rw [← hml]; omega
                    · have e0 : b0 = 0x16 := Classical.byContradiction h0
                      have hb3 := b3.toNat_lt
                      have hb4 := b4.toNat_lt
                      rw [vec16, ← hmsg, List.length_take, Nat.min_eq_left (by omega), u16,
                        show (b3.toNat * 256 + b4.toNat) / 256 = b3.toNat by omega,
                        show (b3.toNat * 256 + b4.toNat) % 256 = b4.toNat by omega]
                      simp [e0, UInt8.ofNat_toNat, List.take_append_drop]
                    · rw [g4]; exact hlast _
                    · rw [g5]; simp [GHello.protos]
    · cases h
  · rintro ⟨g, tr, hg, h1, rfl, h2, h3⟩
    have hfit := hg.fits
    have hx := helloExtensions_of g hg
    have hp := (parseExts_some (g.exts.map GExt.encode).flatten {} r).mpr
      ⟨g.exts, rfl, hg.exts, (hon _).mpr h1, by rw [h2]; exact (hlast _).symm, by rw [h3]; simp [GHello.protos]⟩
    have hcons : g.message = 1 :: g.message.tail := rfl
    have hlen : UInt8.toNat (UInt8.ofNat (g.message.length / 256)) * 256 +
        UInt8.toNat (UInt8.ofNat (g.message.length % 256)) = g.message.length := by
      rw [toNat_ofNat_lt (by omega), toNat_ofNat_lt (by omega)]; omega
    unfold peekClientHello
    simp only [vec16, u16, List.cons_append, List.nil_append, List.append_assoc, hlen]
    rw [if_neg (by simp), if_neg (by omega), if_neg (by simp)]
    simp only [List.take_left]
    unfold parseBody
    rw [hcons]
    simp only [ne_eq, not_true_eq_false, ↓reduceIte]
    rw [← hcons, hx]
    simp only [hp]

/-- A first record the proxy accepts although it holds an empty name first, and junk. -/
def Spec.sampleG : GHello where
  recordVersion := (3, 1)
  msgLen := (0, 0, 0)
  versionRandom := List.replicate 34 7
  sessionId := []
  cipherSuites := [0x13, 0x01]
  compression := [0]
  exts := [.sni [[], [97]] [9], .alpn [[104, 50]] []]
  junk := [1, 2]

example : (peekClientHello ([0x16, 3, 1] ++ vec16 Spec.sampleG.message ++ [5])).res =
    .ok ⟨[97], [[104, 50]]⟩ := by decide +kernel

/-- Two names are refused, and so is a server_hello. -/
example : (peekClientHello ([0x16, 3, 1] ++ vec16
    { Spec.sampleG with exts := [.sni [[97], [98]] []] }.message)).res = .err := by decide +kernel
example : (peekClientHello ([0x16, 3, 1] ++ vec16 (2 :: Spec.sampleG.message.tail))).res = .err := by
  decide +kernel

end Verif.Hello
