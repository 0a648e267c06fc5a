import Verif.Spec.Hello
/-
Helper lemmas about the byte readers of Verif.Model.Hello.
-/
namespace Verif.Hello

theorem toNat_ofNat_lt {n : Nat} (h : n < 256) : (UInt8.ofNat n).toNat = n := by
  simp [UInt8.toNat_ofNat']; omega

theorem readU16_enc {n : Nat} (h : n < 65536) (r : Bytes) :
    readU16 (UInt8.ofNat (n / 256) :: UInt8.ofNat (n % 256) :: r) = some (n, r) := by
  simp only [readU16, toNat_ofNat_lt (show n / 256 < 256 by omega),
    toNat_ofNat_lt (show n % 256 < 256 by omega)]
  congr 2; omega

theorem readN_append (a r : Bytes) : readN a.length (a ++ r) = some (a, r) := by
  simp [readN]

theorem skip_append (a r : Bytes) : skip a.length (a ++ r) = some r := by
  simp [skip]

theorem skip_append' {n : Nat} (a r : Bytes) (h : a.length = n) : skip n (a ++ r) = some r := by
  subst h; simp [skip]

theorem readU16Pref_enc {a : Bytes} (h : a.length < 65536) (r : Bytes) :
    readU16Pref (UInt8.ofNat (a.length / 256) :: UInt8.ofNat (a.length % 256) :: (a ++ r))
      = some (a, r) := by
  simp only [readU16Pref, readU16_enc h, readN_append]

theorem readU8Pref_enc {a : Bytes} (h : a.length < 256) (r : Bytes) :
    readU8Pref (UInt8.ofNat a.length :: (a ++ r)) = some (a, r) := by
  simp only [readU8Pref, readU8, toNat_ofNat_lt h, readN_append]

theorem parseNames_nil (n : Bytes) : parseNames [] n = some n := by
  unfold parseNames; rfl

theorem parseProtos_nil (acc : List Bytes) : parseProtos [] acc = some acc := by
  unfold parseProtos; rfl

theorem parseExts_nil (h : ClientHello) : parseExts [] h = some h := by
  unfold parseExts; rfl

theorem parseProtos_step {s p r : Bytes} {acc : List Bytes} (h : readU8Pref s = some (p, r)) :
    parseProtos s acc = parseProtos r (acc ++ [p]) := by
  cases s with
  | nil => simp [readU8Pref, readU8] at h
  | cons b s =>
    conv => lhs; unfold parseProtos
    split
    · rename_i h'; rw [h] at h'; cases h'
    · rename_i h'; rw [h] at h'; cases h'; rfl

theorem parseExts_step {s d r : Bytes} {t : Nat} {h h' : ClientHello}
    (he : readExt s = some (t, d, r)) (ha : applyExt t d h = some h') :
    parseExts s h = parseExts r h' := by
  cases s with
  | nil => simp [readExt, readU16] at he
  | cons b s =>
    conv => lhs; unfold parseExts
    split
    · rename_i h''; rw [he] at h''; cases h''
    · rename_i h''; rw [he] at h''; cases h''; rw [ha]

open Spec

theorem parseNames_one {host : Bytes} (h : host.length + 5 < 65536) :
    parseNames (0 :: vec16 host) [] = some host := by
  unfold parseNames
  have := readU16Pref_enc (a := host) (by omega) []
  simp only [List.append_nil] at this
  simp only [vec16, u16, List.cons_append, List.nil_append]
  simp only [ne_eq, not_true_eq_false, ↓reduceIte]
  split
  · rename_i h'; rw [this] at h'; cases h'
  · rename_i h'; rw [this] at h'; cases h'; simp [parseNames_nil]

theorem parseProtos_enc (ps acc : List Bytes) (h : ∀ p ∈ ps, p.length < 256) :
    parseProtos (ps.map vec8).flatten acc = some (acc ++ ps) := by
  induction ps generalizing acc with
  | nil => simp [parseProtos_nil]
  | cons p ps ih =>
    have hp := readU8Pref_enc (a := p) (h p (by simp)) (ps.map vec8).flatten
    simp only [List.map_cons, List.flatten_cons, vec8, List.cons_append] at hp ⊢
    rw [parseProtos_step hp, ih _ (fun q hq => h q (by simp [hq]))]
    simp

theorem applyExt_enc (e : Ext) (he : e.WF) (h : ClientHello)
    (hn : ∀ n, e = .sni n → h.serverName = []) :
    applyExt e.type e.data h = some
      { serverName := match e with | .sni n => n | _ => h.serverName
        alpnProtos := h.alpnProtos ++ match e with | .alpn ps => ps | _ => [] } := by
  cases e with
  | sni n =>
    have hl := he; simp only [Ext.WF] at hl
    have := readU16Pref_enc (a := 0 :: vec16 n) (by simp [vec16, u16]; omega) []
    simp only [List.append_nil] at this
    simp only [applyExt, Ext.type, Ext.data, ↓reduceIte]
    rw [vec16, u16, List.cons_append, List.cons_append, List.nil_append, this]
    simp [hn n rfl, parseNames_one hl]
  | alpn ps =>
    obtain ⟨h1, h2⟩ := he
    have := readU16Pref_enc (a := (ps.map vec8).flatten) (by omega) []
    simp only [List.append_nil] at this
    simp only [applyExt, Ext.type, Ext.data]
    rw [vec16, u16, List.cons_append, List.cons_append, List.nil_append, this]
    simp [parseProtos_enc _ _ h1]
  | other t d =>
    obtain ⟨h0, h16, _⟩ := he
    simp [applyExt, Ext.type, Ext.data, h0, h16]

theorem ext_data_lt {e : Ext} (he : e.WF) : e.data.length < 65536 := by
  cases e with
  | sni n => simp [Ext.WF] at he; simp [Ext.data, vec16, u16]; omega
  | alpn ps => obtain ⟨_, h⟩ := he; simp only [Ext.data, vec16, u16, List.length_append]; simp at h ⊢; omega
  | other t d => exact he.2.2.2

theorem ext_type_lt {e : Ext} (he : e.WF) : e.type < 65536 := by
  cases e with
  | sni n => simp [Ext.type]
  | alpn ps => simp [Ext.type]
  | other t d => exact he.2.2.1

theorem readExt_enc {e : Ext} (he : e.WF) (r : Bytes) :
    readExt (e.encode ++ r) = some (e.type, e.data, r) := by
  have := readU16Pref_enc (ext_data_lt he) r
  simp only [readExt, Ext.encode, u16, vec16, List.cons_append, List.nil_append,
    List.append_assoc, readU16_enc (ext_type_lt he), this]

theorem parseExts_enc (es : List Ext) (hes : ∀ e ∈ es, e.WF) (h : ClientHello)
    (h1 : (es.filterMap Ext.host?).length ≤ 1)
    (h2 : h.serverName ≠ [] → (es.filterMap Ext.host?) = []) :
    parseExts (es.map Ext.encode).flatten h = some
      { serverName := ((es.filterMap Ext.host?).head?).getD h.serverName
        alpnProtos := h.alpnProtos ++ (es.filterMap Ext.alpn?).flatten } := by
  induction es generalizing h with
  | nil => simp [parseExts_nil]
  | cons e es ih =>
    have hw := hes e (by simp)
    have hr := readExt_enc hw (es.map Ext.encode).flatten
    simp only [List.map_cons, List.flatten_cons]
    have ha := applyExt_enc e hw h (by
      rintro n rfl
      apply Classical.byContradiction
      intro hc
      have := h2 hc
      simp [List.filterMap_cons, Ext.host?] at this)
    rw [parseExts_step hr ha]
    cases e with
    | sni n =>
      simp only [List.filterMap_cons, Ext.host?, List.length_cons] at h1
      have hnil : (es.filterMap Ext.host?) = [] := by
        apply List.eq_nil_of_length_eq_zero; omega
      rw [ih (fun e he => hes e (by simp [he])) _ (by rw [hnil]; simp) (fun _ => hnil)]
      simp [List.filterMap_cons, hnil, Ext.host?, Ext.alpn?]
    | alpn ps =>
      rw [ih (fun e he => hes e (by simp [he])) _ (by simpa [List.filterMap_cons, Ext.host?] using h1)
        (by simpa [List.filterMap_cons, Ext.host?] using h2)]
      simp [List.filterMap_cons, List.findSome?_cons, Ext.host?, Ext.alpn?]
    | other t d =>
      rw [ih (fun e he => hes e (by simp [he])) _ (by simpa [List.filterMap_cons, Ext.host?] using h1)
        (by simpa [List.filterMap_cons, Ext.host?] using h2)]
      simp [List.filterMap_cons, List.findSome?_cons, Ext.host?, Ext.alpn?]

theorem helloExtensions_enc (h : Hello) (hw : h.WF) :
    helloExtensions h.message = some (h.exts.map Ext.encode).flatten := by
  have hfit := hw.fits
  have hlen : (h.exts.map Ext.encode).flatten.length < 65536 := by
    simp only [Hello.message, Hello.body, vec16, u16, List.length_append, List.length_cons,
      List.length_nil] at hfit
    omega
  have hb : h.body = [h.version.1, h.version.2] ++ h.random ++ (vec8 h.sessionId ++
      (vec16 h.cipherSuites ++ (vec8 h.compression ++ vec16 (h.exts.map Ext.encode).flatten))) := by
    simp [Hello.body]
  have hE := readU16Pref_enc hlen []
  simp only [List.append_nil] at hE
  unfold helloExtensions Hello.message
  rw [skip_append' _ _ (by simp)]
  simp only [Option.bind_eq_bind, Option.bind_some, hb]
  rw [skip_append' _ _ (by simp [hw.random])]
  simp only [Option.bind_some, vec8, vec16, u16, List.cons_append, List.nil_append,
    readU8, toNat_ofNat_lt hw.sessionId, skip_append, readU16_enc hw.cipherSuites,
    toNat_ofNat_lt hw.compression, hE]
  rfl


end Verif.Hello
