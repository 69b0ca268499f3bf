import Verif.Props.Segments
import Verif.Props.Huffman
/-! Header segments that are accepted. -/

namespace Zune
open Spec

/-- A number as two bytes. -/
def Spec.twoBytes (n : Nat) : List UInt8 := [UInt8.ofNat (n / 256), UInt8.ofNat (n % 256)]

theorem be16_twoBytes {n : Nat} (h : n < 65536) :
    (be16 (UInt8.ofNat (n / 256)) (UInt8.ofNat (n % 256))).toNat = n := by
  unfold be16
  rw [u16_toNat]
  have h1 : (UInt8.ofNat (n / 256)).toNat = n / 256 := by
    rw [UInt8.toNat_ofNat']; omega
  have h2 : (UInt8.ofNat (n % 256)).toNat = n % 256 := by
    rw [UInt8.toNat_ofNat']; omega
  rw [h1, h2]
  omega

/-- The start of scan marker ends the loop. -/
theorem HL.sos {last : UInt8} {count : Nat} {d d' : Decoder} {rd rd' : List UInt8}
    (hl : last ≠ 0xFF) (hc : count ≤ 2) (h : parseSos ⟨d, rd⟩ = (.ok (), ⟨d', rd'⟩)) :
    HL last count d (0xFF :: 0xDA :: rd) d' rd' := by
  refine ⟨2, ?_⟩
  have h1 : readByte ⟨d, 0xFF :: 0xDA :: rd⟩ = (.ok 0xFF, ⟨d, 0xDA :: rd⟩) := rfl
  have h2 : headerStep last count 0xFF ⟨d, 0xDA :: rd⟩ = (.ok (some count), ⟨d, 0xDA :: rd⟩) := by
    unfold headerStep
    rw [if_neg hl]; rfl
  have h3 : getDec ⟨d, 0xDA :: rd⟩ = (.ok d, ⟨d, 0xDA :: rd⟩) := rfl
  unfold headerLoop
  rw [M.bind_ok h1, M.bind_ok h2]
  show (getDec >>= _) _ = _
  rw [M.bind_ok h3, if_neg (by omega)]
  have h4 : readByte ⟨d, 0xDA :: rd⟩ = (.ok 0xDA, ⟨d, rd⟩) := rfl
  have h5 : headerStep 0xFF (count + 1) 0xDA ⟨d, rd⟩ = (.ok none, ⟨d', rd'⟩) := by
    unfold headerStep
    rw [if_pos rfl]
    show ((parseMarkerInner .sos) >>= fun _ => _) _ = _
    have : parseMarkerInner .sos ⟨d, rd⟩ = (.ok (), ⟨d', rd'⟩) := h
    rw [M.bind_ok this]
    rfl
  unfold headerLoop
  rw [M.bind_ok h4, M.bind_ok h5]
  rfl

/-! ### Huffman tables -/

theorem readExact_append (e : DecodeErr) (d : Decoder) (a rest : List UInt8) {n : Nat}
    (h : a.length = n) : readExact n e ⟨d, a ++ rest⟩ = (.ok a, ⟨d, rest⟩) := by
  unfold readExact
  rw [if_neg (by rw [List.length_append]; omega)]
  subst h
  simp

/-- The decoder with a Huffman table. -/
def setTable (d : Decoder) (isDc : Bool) (k : Nat) (t : HuffmanTable) : Decoder :=
  if isDc then { d with dcTables := d.dcTables.set k (some t) }
  else { d with acTables := d.acTables.set k (some t) }

/-- A DHT segment with one table. -/
theorem dht_one (d : Decoder) (isDc : Bool) {k : Nat} (hk : k < 4) {counts syms : List UInt8}
    (hc : counts.length = 16) (hs : (counts.map (·.toNat)).sum = syms.length)
    (h256 : syms.length ≤ 256) {t : HuffmanTable}
    (ht : HuffmanTable.new (0 :: counts.map (·.toNat)) (padTo256 (syms.map (·.toNat))) isDc
      d.isProgressive = some t) :
    SegOk 0xC4 (UInt8.ofNat ((if isDc then 0 else 16) + k) :: (counts ++ syms)) d
      (setTable d isDc k t) := by
  unfold SegOk
  rw [show segStep 0xC4 = parseHuffman from rfl]
  unfold parseHuffman
  obtain ⟨pl, hpl⟩ : ∃ pl, UInt8.ofNat ((if isDc then 0 else 16) + k) :: (counts ++ syms) = pl :=
    ⟨_, rfl⟩
  have hlen : pl.length = 17 + syms.length := by
    rw [← hpl, List.length_cons, List.length_append]; omega
  have hb := be16_lenBytes (n := pl.length) (by omega)
  rw [hpl]
  have h1 : readU16 .formatStatic ⟨d, lenBytes pl.length ++ pl⟩ =
      (.ok (be16 (UInt8.ofNat ((pl.length + 2) / 256)) (UInt8.ofNat ((pl.length + 2) % 256))),
        ⟨d, pl⟩) := rfl
  rw [M.bind_ok h1, if_neg]
  rotate_left
  · intro hlt
    have : (be16 (UInt8.ofNat ((pl.length + 2) / 256)) (UInt8.ofNat ((pl.length + 2) % 256))).toNat < 2
      := hlt
    omega
  rw [hb, show pl.length + 2 - 2 = pl.length by omega]
  have hi : (UInt8.ofNat ((if isDc then 0 else 16) + k) >>> 4).toNat = if isDc then 0 else 1 := by
    have : ∀ (b : Bool) (k : Fin 4), (UInt8.ofNat ((if b then 0 else 16) + (k : Nat)) >>> 4).toNat =
      if b then 0 else 1 := by decide
    exact this isDc ⟨k, hk⟩
  have hx : (UInt8.ofNat ((if isDc then 0 else 16) + k) &&& 0xF).toNat = k := by
    have : ∀ (b : Bool) (k : Fin 4), (UInt8.ofNat ((if b then 0 else 16) + (k : Nat)) &&& 0xF).toNat =
      k := by decide
    exact this isDc ⟨k, hk⟩
  have hloop : parseHuffmanLoop (pl.length + 2) pl.length ⟨d, pl⟩ = (.ok 0, ⟨setTable d isDc k t, []⟩) := by
    conv_lhs => rw [parseHuffmanLoop]
    rw [if_pos (by omega)]
    have r1 : readByte ⟨d, pl⟩ =
        (.ok (UInt8.ofNat ((if isDc then 0 else 16) + k)), ⟨d, counts ++ syms⟩) := by
      rw [← hpl]; rfl
    rw [M.bind_ok r1, hi, hx, if_neg (by show ¬ k ≥ 4; omega), if_neg (by split <;> omega)]
    rw [M.bind_ok (readExact_append _ d counts syms hc)]
    have hsum : (0 :: counts.map (·.toNat)).sum = syms.length := by
      rw [List.sum_cons, hs]; omega
    rw [hsum, if_neg (by omega), if_neg (by omega)]
    have r2 := readExact_append .format d syms [] rfl
    rw [List.append_nil] at r2
    rw [M.bind_ok r2]
    have r3 : getDec (⟨d, []⟩ : H) = (.ok d, ⟨d, []⟩) := rfl
    rw [M.bind_ok r3]
    have hdec : decide ((if isDc then 0 else 1 : Nat) = 0) = isDc := by cases isDc <;> rfl
    have r4 : M.okOr (HuffmanTable.new (0 :: counts.map (·.toNat)) (padTo256 (syms.map (·.toNat)))
        (decide ((if isDc then 0 else 1 : Nat) = 0)) d.isProgressive) .huffmanDecode (⟨d, []⟩ : H) =
        (.ok t, ⟨d, []⟩) := by rw [hdec, ht]; rfl
    rw [M.bind_ok r4]
    have r5 : modDec (fun d => if (if isDc then 0 else 1 : Nat) = 0
        then { d with dcTables := d.dcTables.set k (some t) }
        else { d with acTables := d.acTables.set k (some t) }) ⟨d, []⟩ =
        (.ok (), ⟨setTable d isDc k t, []⟩) := by
      cases isDc <;> rfl
    rw [M.bind_ok r5, hlen, show 17 + syms.length - 17 - syms.length = 0 by omega]
    rfl
  rw [M.bind_ok hloop]
  rfl

/-- A DQT segment with one table. -/
theorem dqt_one (d : Decoder) {k : Nat} (hk : k < 4) {vs : List UInt8}
    (hv : vs.length = 64) :
    SegOk 0xDB (UInt8.ofNat k :: vs) d
      { d with qtTables := d.qtTables.set k (some (unZigZag (vs.map (·.toNat)))) } := by
  have hb := be16_lenBytes (n := 65) (by omega)
  unfold SegOk
  rw [show segStep 0xDB = parseDqt from rfl, List.length_cons, hv]
  unfold parseDqt
  have h1 : readU16 .format ⟨d, lenBytes (64 + 1) ++ UInt8.ofNat k :: vs⟩ =
      (.ok (be16 (UInt8.ofNat ((65 + 2) / 256)) (UInt8.ofNat ((65 + 2) % 256))),
        ⟨d, UInt8.ofNat k :: vs⟩) := rfl
  rw [M.bind_ok h1, if_neg (by decide), hb]
  have := dqtLoop_complete [⟨k, vs⟩] 67 d [] (by
    intro t ht
    rw [List.mem_singleton] at ht
    subst ht
    exact ⟨hk, hv⟩) (by simp)
  simp only [List.length_singleton, List.flatMap_cons, List.flatMap_nil, List.append_nil,
    DqtTable.bytes] at this
  exact this

/-- A restart interval. -/
theorem dri_one (d : Decoder) {n : Nat} (hn : n < 65536) :
    SegOk 0xDD (twoBytes n) d { d with restartInterval := n, todo := n } := by
  unfold SegOk
  have h := be16_twoBytes hn
  show (readU16 .exhausted >>= _) _ = _
  have h1 : readU16 .exhausted ⟨d, lenBytes (twoBytes n).length ++ twoBytes n⟩ =
      (.ok (be16 (UInt8.ofNat ((2 + 2) / 256)) (UInt8.ofNat ((2 + 2) % 256))), ⟨d, twoBytes n⟩) := rfl
  rw [M.bind_ok h1, if_neg (by decide)]
  have h2 : readU16 .exhausted ⟨d, twoBytes n⟩ =
      (.ok (be16 (UInt8.ofNat (n / 256)) (UInt8.ofNat (n % 256))), ⟨d, []⟩) := rfl
  rw [M.bind_ok h2, h]
  rfl

/-! ### Frame headers -/

theorem modDec_apply (f : Decoder → Decoder) (d : Decoder) (rd : List UInt8) :
    modDec f ⟨d, rd⟩ = (.ok (), ⟨f d, rd⟩) := rfl

theorem getDec_apply (d : Decoder) (rd : List UInt8) : getDec ⟨d, rd⟩ = (.ok d, ⟨d, rd⟩) := rfl

/-- The decoder after the sampling factors of a component have been seen. -/
def compDec (d : Decoder) (c : Component) : Decoder :=
  frameDims d (max d.hMax c.horizontalSample) (max d.vMax c.verticalSample)

theorem setup_cons {d : Decoder} {c : Component} {cs : List Component} {rd : List UInt8}
    {qt : List Nat} (hq : d.qtTables[c.quantTableNumber]? = some (some qt)) {l : List Component}
    {d' : Decoder} (h : setupComponents cs ⟨compDec d c, rd⟩ = (.ok l, ⟨d', rd⟩)) :
    setupComponents (c :: cs) ⟨d, rd⟩ =
      (.ok ({ c with quantTable := qt
                     widthStride := c.widthStride * ((compDec d c).mcuX * 8) } :: l), ⟨d', rd⟩) := by
  unfold setupComponents
  rw [M.bind_ok (modDec_apply _ _ _)]
  show (getDec >>= _) (⟨compDec d c, rd⟩ : H) = _
  rw [M.bind_ok (getDec_apply _ _)]
  have h1 : M.idx (compDec d c).qtTables c.quantTableNumber (⟨compDec d c, rd⟩ : H) =
      (.ok (some qt), ⟨compDec d c, rd⟩) := by
    unfold M.idx
    rw [show (compDec d c).qtTables = d.qtTables from rfl, hq]
  have h2 : M.okOr (some qt) .dqt (⟨compDec d c, rd⟩ : H) = (.ok qt, ⟨compDec d c, rd⟩) := rfl
  rw [M.bind_ok h1, M.bind_ok h2, M.bind_ok h]
  rfl

/-- A frame header whose components can be set up. -/
theorem sof_complete (sof : SofMarker) (d : Decoder) {w h : Nat} (hw : w < 65536) (hh : h < 65536)
    (w0 : w ≠ 0) (h0 : h ≠ 0) (hmw : w ≤ d.options.getMaxWidth) (hmh : h ≤ d.options.getMaxHeight)
    {n : UInt8} (hn : n ≠ 0) {cb : List UInt8} (hcb : cb.length = 3 * n.toNat) {cs cs' : List Component}
    {d' : Decoder} (hread : ∀ d, readComponents n.toNat ⟨d, cb⟩ = (.ok cs, ⟨d, []⟩))
    (hset : setupComponents cs ⟨sofStart d sof (UInt16.ofNat h) (UInt16.ofNat w) n, []⟩ =
      (.ok cs', ⟨d', []⟩)) :
    parseStartOfFrame sof ⟨d, lenBytes (cb.length + 6) ++ 8 :: (twoBytes h ++ twoBytes w ++ n :: cb)⟩ =
      (.ok (), ⟨{ d' with qtTables := [none, none, none, none], components := cs' }, []⟩) := by
  have eh := be16_twoBytes hh
  have ew := be16_twoBytes hw
  obtain ⟨hb, ehb⟩ : ∃ x, be16 (UInt8.ofNat (h / 256)) (UInt8.ofNat (h % 256)) = x := ⟨_, rfl⟩
  obtain ⟨wb, ewb⟩ : ∃ x, be16 (UInt8.ofNat (w / 256)) (UInt8.ofNat (w % 256)) = x := ⟨_, rfl⟩
  rw [ehb] at eh
  rw [ewb] at ew
  have ehu : UInt16.ofNat h = hb := by rw [← eh]; simp
  have ewu : UInt16.ofNat w = wb := by rw [← ew]; simp
  have hnlt := n.toNat_lt
  have el := be16_lenBytes (n := cb.length + 6) (by omega)
  obtain ⟨lb, elb⟩ : ∃ x, be16 (UInt8.ofNat ((cb.length + 6 + 2) / 256))
    (UInt8.ofNat ((cb.length + 6 + 2) % 256)) = x := ⟨_, rfl⟩
  rw [elb] at el
  unfold parseStartOfFrame
  have r1 : readU16 .format ⟨d, lenBytes (cb.length + 6) ++
      8 :: (twoBytes h ++ twoBytes w ++ n :: cb)⟩ = (.ok lb,
      ⟨d, 8 :: (twoBytes h ++ twoBytes w ++ n :: cb)⟩) := by rw [← elb]; rfl
  rw [M.bind_ok r1]
  have r2 : readByte ⟨d, 8 :: (twoBytes h ++ twoBytes w ++ n :: cb)⟩ =
      (.ok 8, ⟨d, twoBytes h ++ twoBytes w ++ n :: cb⟩) := rfl
  rw [M.bind_ok r2, if_neg (by decide)]
  rw [M.bind_ok (modDec_apply _ _ _)]
  have r3 : ∀ d, readU16 .format ⟨d, twoBytes h ++ twoBytes w ++ n :: cb⟩ =
      (.ok hb, ⟨d, twoBytes w ++ n :: cb⟩) := by rw [← ehb]; exact fun _ => rfl
  rw [M.bind_ok (r3 _), M.bind_ok (modDec_apply _ _ _)]
  have r4 : ∀ d, readU16 .format ⟨d, twoBytes w ++ n :: cb⟩ =
      (.ok wb, ⟨d, n :: cb⟩) := by rw [← ewb]; exact fun _ => rfl
  rw [M.bind_ok (r4 _), M.bind_ok (modDec_apply _ _ _), M.bind_ok (getDec_apply _ _), ew, eh]
  dsimp only
  rw [if_neg (by omega), if_neg (by omega), if_neg]
  rotate_left
  · rintro (rfl | rfl)
    · exact w0 ew.symm
    · exact h0 eh.symm
  have r5 : ∀ d, readByte ⟨d, n :: cb⟩ = (.ok n, ⟨d, cb⟩) := fun _ => rfl
  rw [M.bind_ok (r5 _), if_neg hn, if_neg (by omega), M.bind_ok (modDec_apply _ _ _),
    M.bind_ok (modDec_apply _ _ _), M.bind_ok (hread _), M.bind_ok (modDec_apply _ _ _)]
  have e : ∀ x : Decoder, x = sofStart d sof (UInt16.ofNat h) (UInt16.ofNat w) n →
      (setupComponents cs >>= fun comps => modDec fun d => { d with
        qtTables := [none, none, none, none], components := comps }) ⟨x, []⟩ =
      (.ok (), ⟨{ d' with qtTables := [none, none, none, none], components := cs' }, []⟩) := by
    rintro x rfl
    rw [M.bind_ok hset]
    rfl
  apply e
  rw [ehu, ewu]
  unfold sofStart
  by_cases h1 : n = 1
  · simp only [if_pos h1]
  · simp only [if_neg h1]

/-- The component of a grayscale frame. -/
def grayComponent (w q : Nat) (qt : List Nat) : Component :=
  { componentId := .y, verticalSample := 1, horizontalSample := 1, quantTableNumber := q
    quantTable := qt, widthStride := 1 * ((w + 8 - 1) / 8 * 8), id := 1 }

/-- The decoder after the frame header of a grayscale image. -/
def grayFrameOf (sof : SofMarker) (d : Decoder) (w h q : Nat) (qt : List Nat) : Decoder :=
  { d with
    info := { d.info with pixelDensity := 8, height := UInt16.ofNat h, width := UInt16.ofNat w
                          components := 1, sof := sof }
    inputColorspace := .grayscale
    options := d.options.setOutColorspace .grayscale
    mcuWidth := 8, mcuHeight := 8, mcuX := (w + 8 - 1) / 8, mcuY := (h + 8 - 1) / 8
    qtTables := [none, none, none, none], components := [grayComponent w q qt] }

/-- The decoder after the frame header of a grayscale image if it may have been used before. -/
def usedFrameOf (d : Decoder) (w h q : Nat) (qt : List Nat) : Decoder :=
  { grayFrameOf .baselineDct d w h q qt with
    mcuWidth := d.hMax * 8, mcuHeight := d.vMax * 8
    mcuX := (w + d.hMax * 8 - 1) / (d.hMax * 8), mcuY := (h + d.vMax * 8 - 1) / (d.vMax * 8)
    interleaved := if d.hMax ≠ 1 ∨ d.vMax ≠ 1 then true else d.interleaved
    components := [{ grayComponent w q qt with
                     widthStride := 1 * ((w + d.hMax * 8 - 1) / (d.hMax * 8) * 8) }] }

/-- The decoder after the frame header of a baseline grayscale image. -/
abbrev grayFrameDec (d : Decoder) (w h q : Nat) (qt : List Nat) : Decoder :=
  grayFrameOf .baselineDct d w h q qt

theorem u16_ofNat_toNat {n : Nat} (h : n < 65536) : (UInt16.ofNat n).toNat = n := by
  rw [UInt16.toNat_ofNat']; exact Nat.mod_eq_of_lt h

theorem sof_gray_any (sof : SofMarker) (d : Decoder) (hm : d.hMax = 1) (vm : d.vMax = 1) {w h q : Nat} (hw : w < 65536)
    (hh : h < 65536) (w0 : w ≠ 0) (h0 : h ≠ 0) (hmw : w ≤ d.options.getMaxWidth)
    (hmh : h ≤ d.options.getMaxHeight) (hq : q < 4) {qt : List Nat}
    (hqt : d.qtTables[q]? = some (some qt)) :
    parseStartOfFrame sof ⟨d, lenBytes 9 ++
        8 :: (twoBytes h ++ twoBytes w ++ [1, 1, 0x11, UInt8.ofNat q])⟩ =
      (.ok (), ⟨grayFrameOf sof d w h q qt, []⟩) := by
  have hqn : (UInt8.ofNat q).toNat = q := by rw [UInt8.toNat_ofNat']; omega
  have r6 : ∀ d, readComponents 1 ⟨d, [1, 0x11, UInt8.ofNat q]⟩ =
      (.ok [{ componentId := .y, verticalSample := 1, horizontalSample := 1
              quantTableNumber := q, widthStride := 1, id := 1 }], ⟨d, []⟩) := by
    intro d
    have hf : Component.from 1 0x11 (UInt8.ofNat q) = .ok
        { componentId := .y, verticalSample := 1, horizontalSample := 1
          quantTableNumber := q, widthStride := 1, id := 1 } := by
      unfold Component.from
      dsimp only
      rw [if_pos rfl, hqn, if_neg (by show ¬ q ≥ 4; omega)]
      rfl
    have x1 : readExact 3 .format ⟨d, [1, 0x11, UInt8.ofNat q]⟩ =
        (.ok [1, 0x11, UInt8.ofNat q], ⟨d, []⟩) := rfl
    unfold readComponents
    rw [M.bind_ok x1]
    show (M.ofOut (Component.from 1 0x11 (UInt8.ofNat q)) >>= _) _ = _
    have x2 : M.ofOut (Component.from 1 0x11 (UInt8.ofNat q)) (⟨d, []⟩ : H) = (.ok
        { componentId := .y, verticalSample := 1, horizontalSample := 1
          quantTableNumber := q, widthStride := 1, id := 1 }, ⟨d, []⟩) := by rw [hf]; rfl
    rw [M.bind_ok x2]
    rfl
  have hs := setup_cons (d := sofStart d sof (UInt16.ofNat h) (UInt16.ofNat w) 1)
    (c := { componentId := .y, verticalSample := 1, horizontalSample := 1
            quantTableNumber := q, widthStride := 1, id := 1 }) (cs := []) (rd := []) hqt rfl
  have := sof_complete sof d hw hh w0 h0 hmw hmh (n := 1) (by decide)
    (cb := [1, 0x11, UInt8.ofNat q]) rfl r6 hs
  refine Eq.trans (show _ = _ from this) ?_
  congr 2
  unfold compDec frameDims sofStart grayFrameOf grayComponent
  dsimp only
  rw [hm, vm]
  simp only [if_true, u16_ofNat_toNat hw, u16_ofNat_toNat hh]
  cases d
  dsimp only at hm vm
  subst hm vm
  rfl

theorem sof_gray_used (d : Decoder) (hm : 0 < d.hMax) (vm : 0 < d.vMax) {w h q : Nat} (hw : w < 65536)
    (hh : h < 65536) (w0 : w ≠ 0) (h0 : h ≠ 0) (hmw : w ≤ d.options.getMaxWidth)
    (hmh : h ≤ d.options.getMaxHeight) (hq : q < 4) {qt : List Nat}
    (hqt : d.qtTables[q]? = some (some qt)) :
    parseStartOfFrame .baselineDct ⟨d, lenBytes 9 ++
        8 :: (twoBytes h ++ twoBytes w ++ [1, 1, 0x11, UInt8.ofNat q])⟩ =
      (.ok (), ⟨usedFrameOf d w h q qt, []⟩) := by
  have hqn : (UInt8.ofNat q).toNat = q := by rw [UInt8.toNat_ofNat']; omega
  have r6 : ∀ d, readComponents 1 ⟨d, [1, 0x11, UInt8.ofNat q]⟩ =
      (.ok [{ componentId := .y, verticalSample := 1, horizontalSample := 1
              quantTableNumber := q, widthStride := 1, id := 1 }], ⟨d, []⟩) := by
    intro d
    have hf : Component.from 1 0x11 (UInt8.ofNat q) = .ok
        { componentId := .y, verticalSample := 1, horizontalSample := 1
          quantTableNumber := q, widthStride := 1, id := 1 } := by
      unfold Component.from
      dsimp only
      rw [if_pos rfl, hqn, if_neg (by show ¬ q ≥ 4; omega)]
      rfl
    have x1 : readExact 3 .format ⟨d, [1, 0x11, UInt8.ofNat q]⟩ =
        (.ok [1, 0x11, UInt8.ofNat q], ⟨d, []⟩) := rfl
    unfold readComponents
    rw [M.bind_ok x1]
    show (M.ofOut (Component.from 1 0x11 (UInt8.ofNat q)) >>= _) _ = _
    have x2 : M.ofOut (Component.from 1 0x11 (UInt8.ofNat q)) (⟨d, []⟩ : H) = (.ok
        { componentId := .y, verticalSample := 1, horizontalSample := 1
          quantTableNumber := q, widthStride := 1, id := 1 }, ⟨d, []⟩) := by rw [hf]; rfl
    rw [M.bind_ok x2]
    rfl
  have hs := setup_cons (d := sofStart d .baselineDct (UInt16.ofNat h) (UInt16.ofNat w) 1)
    (c := { componentId := .y, verticalSample := 1, horizontalSample := 1
            quantTableNumber := q, widthStride := 1, id := 1 }) (cs := []) (rd := []) hqt rfl
  have := sof_complete .baselineDct d hw hh w0 h0 hmw hmh (n := 1) (by decide)
    (cb := [1, 0x11, UInt8.ofNat q]) rfl r6 hs
  refine Eq.trans (show _ = _ from this) ?_
  congr 2
  unfold compDec frameDims sofStart usedFrameOf grayFrameOf grayComponent
  dsimp only
  rw [Nat.max_eq_left hm, Nat.max_eq_left vm]
  simp only [if_true, u16_ofNat_toNat hw, u16_ofNat_toNat hh]

theorem sof_gray (d : Decoder) (hm : d.hMax = 1) (vm : d.vMax = 1) {w h q : Nat} (hw : w < 65536)
    (hh : h < 65536) (w0 : w ≠ 0) (h0 : h ≠ 0) (hmw : w ≤ d.options.getMaxWidth)
    (hmh : h ≤ d.options.getMaxHeight) (hq : q < 4) {qt : List Nat}
    (hqt : d.qtTables[q]? = some (some qt)) :
    SegOk 0xC0 (8 :: (twoBytes h ++ twoBytes w ++ [1, 1, 0x11, UInt8.ofNat q])) d
      (grayFrameDec d w h q qt) :=
  sof_gray_any .baselineDct d hm vm hw hh w0 h0 hmw hmh hq hqt

theorem sof_gray_again (d : Decoder) (hm : 0 < d.hMax) (vm : 0 < d.vMax) {w h q : Nat} (hw : w < 65536)
    (hh : h < 65536) (w0 : w ≠ 0) (h0 : h ≠ 0) (hmw : w ≤ d.options.getMaxWidth)
    (hmh : h ≤ d.options.getMaxHeight) (hq : q < 4) {qt : List Nat}
    (hqt : d.qtTables[q]? = some (some qt)) :
    SegOk 0xC0 (8 :: (twoBytes h ++ twoBytes w ++ [1, 1, 0x11, UInt8.ofNat q])) d
      (usedFrameOf d w h q qt) :=
  sof_gray_used d hm vm hw hh w0 h0 hmw hmh hq hqt

theorem sof_gray_progressive (d : Decoder) (hm : d.hMax = 1) (vm : d.vMax = 1) {w h q : Nat}
    (hw : w < 65536) (hh : h < 65536) (w0 : w ≠ 0) (h0 : h ≠ 0) (hmw : w ≤ d.options.getMaxWidth)
    (hmh : h ≤ d.options.getMaxHeight) (hq : q < 4) {qt : List Nat}
    (hqt : d.qtTables[q]? = some (some qt)) :
    SegOk 0xC2 (8 :: (twoBytes h ++ twoBytes w ++ [1, 1, 0x11, UInt8.ofNat q])) d
      (grayFrameOf .progressiveDctHuffman { d with isProgressive := true } w h q qt) :=
  sof_gray_any .progressiveDctHuffman { d with isProgressive := true } hm vm hw hh w0 h0 hmw hmh hq hqt

/-! ### Scan header of one component -/

/-- The decoder after a scan header of a grayscale image. -/
def scanDec (d : Decoder) (c : Component) (a b ss se ah al : Nat) : Decoder :=
  { d with
    numScans := 1, components := [{ c with dcHuffTable := a, acHuffTable := b }]
    zOrder := d.zOrder.set 0 0, specStart := ss, specEnd := se, succHigh := ah, succLow := al }

/-- The decoder after the scan header of a baseline grayscale image. -/
abbrev grayScanDec (d : Decoder) (c : Component) (a b : Nat) : Decoder := scanDec d c a b 0 63 0 0

theorem sos_scan (d : Decoder) {c : Component} (hc : d.components = [c]) (hid : c.id = 1)
    (hi : d.info.components = 1) {a b : Nat} (ha : a < 4) (hb : b < 4) {ss se ah al : Nat} (hss : ss < 64)
    (hse : se < 64) (hah : ah ≤ 13) (hal : al ≤ 13) (rest : List UInt8) :
    parseSos ⟨d, [0, 8, 1, 1, UInt8.ofNat (16 * a + b), UInt8.ofNat ss, UInt8.ofNat se,
        UInt8.ofNat (16 * ah + al)] ++ rest⟩ = (.ok (), ⟨scanDec d c a b ss se ah al, rest⟩) := by
  have hs64 : ∀ n : Fin 64, (UInt8.ofNat n &&& 63).toNat = n := by decide
  have e1 := hs64 ⟨ss, hss⟩
  have e2 := hs64 ⟨se, hse⟩
  have e3 : (UInt8.ofNat (16 * ah + al) >>> 4).toNat = ah := by
    have : ∀ a b : Fin 14, (UInt8.ofNat (16 * (a : Nat) + b) >>> 4).toNat = a := by decide
    exact this ⟨ah, by omega⟩ ⟨al, by omega⟩
  have e4 : (UInt8.ofNat (16 * ah + al) &&& 0xF).toNat = al := by
    have : ∀ a b : Fin 14, (UInt8.ofNat (16 * (a : Nat) + b) &&& 0xF).toNat = b := by decide
    exact this ⟨ah, by omega⟩ ⟨al, by omega⟩
  dsimp only at e1 e2
  obtain ⟨x1, hx1⟩ : ∃ y, UInt8.ofNat ss = y := ⟨_, rfl⟩
  obtain ⟨x2, hx2⟩ : ∃ y, UInt8.ofNat se = y := ⟨_, rfl⟩
  obtain ⟨x3, hx3⟩ : ∃ y, UInt8.ofNat (16 * ah + al) = y := ⟨_, rfl⟩
  rw [hx1] at e1
  rw [hx2] at e2
  rw [hx3] at e3 e4
  rw [hx1, hx2, hx3]
  have hhi : (UInt8.ofNat (16 * a + b) >>> 4).toNat = a := by
    have : ∀ a b : Fin 4, (UInt8.ofNat (16 * (a : Nat) + b) >>> 4).toNat = a := by decide
    exact this ⟨a, ha⟩ ⟨b, hb⟩
  have hlo : (UInt8.ofNat (16 * a + b) &&& 0xF).toNat = b := by
    have : ∀ a b : Fin 4, (UInt8.ofNat (16 * (a : Nat) + b) &&& 0xF).toNat = b := by decide
    exact this ⟨a, ha⟩ ⟨b, hb⟩
  obtain ⟨y, hy⟩ : ∃ y, UInt8.ofNat (16 * a + b) = y := ⟨_, rfl⟩
  rw [hy] at hhi hlo ⊢
  unfold parseSos
  have r1 : readU16 .exhausted ⟨d, [0, 8, 1, 1, y, x1, x2, x3] ++ rest⟩ =
    (.ok 8, ⟨d, [1, 1, y, x1, x2, x3] ++ rest⟩) := rfl
  have r2 : readByte ⟨d, [1, 1, y, x1, x2, x3] ++ rest⟩ = (.ok 1, ⟨d, [1, y, x1, x2, x3] ++ rest⟩) := rfl
  rw [M.bind_ok r1, M.bind_ok r2, M.bind_ok (modDec_apply _ _ _), if_neg (by decide),
    if_neg (by decide), M.bind_ok (getDec_apply _ _)]
  dsimp only
  rw [if_neg (by rw [hi]; decide)]
  obtain ⟨d1, hd1⟩ : ∃ d1, ({ d with numScans := (1 : UInt8).toNat } : Decoder) = d1 := ⟨_, rfl⟩
  rw [hd1]
  have hc1 : d1.components = [c] := by rw [← hd1]; exact hc
  have hi1 : d1.info.components = 1 := by rw [← hd1]; exact hi
  have hs : sosComponents (1 : UInt8).toNat 0 (List.replicate MAX_COMPONENTS false)
      ⟨d1, [1, y, x1, x2, x3] ++ rest⟩ = (.ok (), ⟨{ d1 with
        components := [{ c with dcHuffTable := a, acHuffTable := b }]
        zOrder := d1.zOrder.set 0 0 }, [x1, x2, x3] ++ rest⟩) := by
    rw [show (1 : UInt8).toNat = 0 + 1 from rfl]
    unfold sosComponents
    have s1 : readByte ⟨d1, [1, y, x1, x2, x3] ++ rest⟩ = (.ok 1, ⟨d1, [y, x1, x2, x3] ++ rest⟩) := rfl
    rw [M.bind_ok s1, M.bind_ok (getDec_apply _ _), if_neg (by rw [hc1]; exact (by decide : ¬ (1 : Nat) > 1))]
    have s2 : M.idx (List.replicate MAX_COMPONENTS false) (1 : UInt8).toNat
      (⟨d1, [y, x1, x2, x3] ++ rest⟩ : H) = (.ok false, ⟨d1, [y, x1, x2, x3] ++ rest⟩) := rfl
    rw [M.bind_ok s2, if_neg (by decide)]
    have s3 : readByte ⟨d1, [y, x1, x2, x3] ++ rest⟩ = (.ok y, ⟨d1, [x1, x2, x3] ++ rest⟩) := rfl
    have s4 : findComponent 1 d1.components d1.info.components.toNat 0 ⟨d1, [x1, x2, x3] ++ rest⟩ =
        (.ok 0, ⟨d1, [x1, x2, x3] ++ rest⟩) := by
      rw [hc1, hi1, show (1 : UInt8).toNat = 0 + 1 from rfl]
      unfold findComponent
      have x : M.idx [c] 0 (⟨d1, [x1, x2, x3] ++ rest⟩ : H) = (.ok c, ⟨d1, [x1, x2, x3] ++ rest⟩) := rfl
      rw [M.bind_ok x, if_pos hid]
      rfl
    rw [M.bind_ok s3, M.bind_ok s4, if_neg (by rw [hi1]; decide), M.bind_ok (modDec_apply _ _ _), hhi,
      hlo, hc1]
    rfl
  rw [M.bind_ok hs]
  have r3 : ∀ d, readByte ⟨d, [x1, x2, x3] ++ rest⟩ = (.ok x1, ⟨d, [x2, x3] ++ rest⟩) := fun _ => rfl
  have r4 : ∀ d, readByte ⟨d, [x2, x3] ++ rest⟩ = (.ok x2, ⟨d, [x3] ++ rest⟩) := fun _ => rfl
  have r5 : ∀ d, readByte ⟨d, [x3] ++ rest⟩ = (.ok x3, ⟨d, rest⟩) := fun _ => rfl
  rw [M.bind_ok (r3 _), M.bind_ok (modDec_apply _ _ _), M.bind_ok (r4 _),
    M.bind_ok (modDec_apply _ _ _), M.bind_ok (r5 _), M.bind_ok (modDec_apply _ _ _),
    e1, e2, e3, e4, if_neg (by omega), M.bind_ok (modDec_apply _ _ _), ← hd1]
  have hf : ∀ s : H, M.failIf (decide (al > 13)) .sof s = (.ok (), s) := by
    intro s
    have h : decide (al > 13) = false := decide_eq_false (by omega)
    rw [h]
    rfl
  exact hf _

theorem sos_gray (d : Decoder) {c : Component} (hc : d.components = [c]) (hid : c.id = 1)
    (hi : d.info.components = 1) {a b : Nat} (ha : a < 4) (hb : b < 4) (rest : List UInt8) :
    parseSos ⟨d, [0, 8, 1, 1, UInt8.ofNat (16 * a + b), 0, 63, 0] ++ rest⟩ =
      (.ok (), ⟨grayScanDec d c a b, rest⟩) :=
  sos_scan d hc hid hi ha hb (show 0 < 64 by omega) (show 63 < 64 by omega) (show 0 ≤ 13 by omega)
    (show 0 ≤ 13 by omega) rest

/-! ### Decoders that have been used before -/

/-- A decoder, new or used, that is ready for a baseline image with luma factors `fh` and `fv`. -/
structure Reusable (d : Decoder) (fh fv : Nat) : Prop where
  hMax : 0 < d.hMax ∧ d.hMax ≤ fh
  vMax : 0 < d.vMax ∧ d.vMax ≤ fv
  inter : d.interleaved = true → ¬ (fh = 1 ∧ fv = 1)
  plain : d.interleaved = false → d.hMax = 1 ∧ d.vMax = 1 ∧ d.subSampleRatio = .none
  prog : d.isProgressive = false
  qt : d.qtTables.length = 4
  dc : d.dcTables.length = 4
  ac : d.acTables.length = 4

theorem Reusable.ratio {d : Decoder} {fh fv : Nat} (U : Reusable d fh fv) (h : fh = 1 ∧ fv = 1) :
    d.subSampleRatio = .none := by
  cases hi : d.interleaved
  · exact (U.plain hi).2.2
  · exact absurd h (U.inter hi)

theorem reusable_new (cpu : Cpu) (o : Options) {fh fv : Nat} (h1 : 0 < fh) (h2 : 0 < fv) :
    Reusable (Decoder.newWithOptions cpu o) fh fv :=
  ⟨⟨Nat.one_pos, h1⟩, ⟨Nat.one_pos, h2⟩, fun h => (by cases h), fun _ => ⟨rfl, rfl, rfl⟩, rfl, rfl, rfl, rfl⟩

end Zune
