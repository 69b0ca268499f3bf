import Verif.Lemmas.ColourHead
/-! Headers of images with three components without subsampling, with other identifiers. -/

namespace Zune
open Spec

/-- The identifiers 1, 2 and 3 in some order. -/
def Spec.Naming (a b c : UInt8) : Prop := [a, b, c].Perm [1, 2, 3]

theorem Spec.Naming.cases {a b c : UInt8} (N : Naming a b c) :
    (a = 1 ∧ b = 2 ∧ c = 3) ∨ (a = 1 ∧ b = 3 ∧ c = 2) ∨ (a = 2 ∧ b = 1 ∧ c = 3) ∨ (a = 2 ∧ b = 3 ∧ c = 1) ∨
      (a = 3 ∧ b = 1 ∧ c = 2) ∨ (a = 3 ∧ b = 2 ∧ c = 1) := by
  have ha : a ∈ [(1 : UInt8), 2, 3] := N.subset (by simp)
  have hb : b ∈ [(1 : UInt8), 2, 3] := N.subset (by simp)
  have hc : c ∈ [(1 : UInt8), 2, 3] := N.subset (by simp)
  have hn : [a, b, c].Nodup := N.nodup_iff.2 (by decide)
  simp only [List.mem_cons, List.not_mem_nil, or_false] at ha hb hc
  rcases ha with rfl | rfl | rfl <;> rcases hb with rfl | rfl | rfl <;> rcases hc with rfl | rfl | rfl <;>
    first | (exfalso; revert hn; decide) | simp

theorem Spec.Naming.seen {a b c : UInt8} (N : Naming a b c) :
    (¬ a.toNat > 3 ∧ ¬ b.toNat > 3 ∧ ¬ c.toNat > 3) ∧
    (List.replicate MAX_COMPONENTS false)[a.toNat]? = some false ∧
    ((List.replicate MAX_COMPONENTS false).set a.toNat true)[b.toNat]? = some false ∧
    (((List.replicate MAX_COMPONENTS false).set a.toNat true).set b.toNat true)[c.toNat]? = some false := by
  rcases N.cases with ⟨rfl, rfl, rfl⟩ | ⟨rfl, rfl, rfl⟩ | ⟨rfl, rfl, rfl⟩ | ⟨rfl, rfl, rfl⟩ | ⟨rfl, rfl, rfl⟩ |
    ⟨rfl, rfl, rfl⟩ <;> decide

/-- What an identifier stands for. -/
def nameOf (b : UInt8) : ComponentID := if b = 1 then .y else if b = 2 then .cb else .cr

/-- A component of a frame header before it is set up. -/
def rawNamed (b : UInt8) (i : Nat) : Component := { rawComp 1 1 i with componentId := nameOf b, id := b }

/-- The components after a frame header. -/
def namedComp (mcuX : Nat) (q0 q1 : List Nat) (a b c : UInt8) (i : Nat) : Component :=
  let n := if i = 0 then a else if i = 1 then b else c
  { colourComp mcuX 1 1 q0 q1 i with componentId := nameOf n, id := n }

/-- The decoder after the frame header. -/
def namedFrameDec (sof : SofMarker) (d : Decoder) (w h : Nat) (q0 q1 : List Nat) (a b c : UInt8) : Decoder :=
  { frameDims (sofStart d sof (UInt16.ofNat h) (UInt16.ofNat w) 3) 1 1 with
    qtTables := [none, none, none, none]
    components := (List.range 3).map (namedComp ((w + 1 * 8 - 1) / (1 * 8)) q0 q1 a b c) }

theorem sof_named (sof : SofMarker) (d : Decoder) {a b c : UInt8} (N : Naming a b c) {w h : Nat}
    (hm : d.hMax ≤ 1) (vm : d.vMax ≤ 1)
    (hw : w < 65536) (hh : h < 65536) (w0 : w ≠ 0) (h0 : h ≠ 0)
    (hmw : w ≤ d.options.getMaxWidth) (hmh : h ≤ d.options.getMaxHeight)
    {q0 q1 : List Nat} (hq0 : d.qtTables[0]? = some (some q0))
    (hq1 : d.qtTables[1]? = some (some q1)) :
    parseStartOfFrame sof ⟨d, lenBytes 15 ++ 8 :: (twoBytes h ++ twoBytes w ++
        [3, a, 0x11, 0, b, 0x11, 1, c, 0x11, 1])⟩ =
      (.ok (), ⟨namedFrameDec sof d w h q0 q1 a b c, []⟩) := by
  have r : ∀ d, readComponents 3 ⟨d, [a, 0x11, 0, b, 0x11, 1, c, 0x11, 1]⟩ =
      (.ok [rawNamed a 0, rawNamed b 1, rawNamed c 2], ⟨d, []⟩) := by
    intro d
    rcases N.cases with ⟨rfl, rfl, rfl⟩ | ⟨rfl, rfl, rfl⟩ | ⟨rfl, rfl, rfl⟩ | ⟨rfl, rfl, rfl⟩ | ⟨rfl, rfl, rfl⟩ |
      ⟨rfl, rfl, rfl⟩ <;> rfl
  have s2 := setup_cons (d := compDec (compDec (sofStart d sof (UInt16.ofNat h) (UInt16.ofNat w) 3)
      (rawNamed a 0)) (rawNamed b 1)) (c := (rawNamed c 2)) (cs := []) (rd := [])
    hq1 rfl
  have s1 := setup_cons (d := compDec (sofStart d sof (UInt16.ofNat h) (UInt16.ofNat w) 3)
      (rawNamed a 0)) (c := (rawNamed b 1)) (cs := [(rawNamed c 2)]) (rd := [])
    hq1 s2
  have s0 := setup_cons (d := sofStart d sof (UInt16.ofNat h) (UInt16.ofNat w) 3)
    (c := (rawNamed a 0)) (cs := [(rawNamed b 1), (rawNamed c 2)]) (rd := [])
    hq0 s1
  have := sof_complete sof d hw hh w0 h0 hmw hmh (n := 3) (by decide)
    (cb := [a, 0x11, 0, b, 0x11, 1, c, 0x11, 1]) rfl r s0
  refine Eq.trans (show _ = _ from this) ?_
  have dims : ∀ D : Decoder, D.hMax ≤ 1 → D.vMax ≤ 1 →
      compDec D (rawNamed a 0) = frameDims D 1 1 ∧
      compDec (compDec D (rawNamed a 0)) (rawNamed b 1) = frameDims D 1 1 ∧
      compDec (compDec (compDec D (rawNamed a 0)) (rawNamed b 1))
        (rawNamed c 2) = frameDims D 1 1 := by
    intro D hD vD
    have a0 : compDec D (rawNamed a 0) = frameDims D 1 1 := by
      show frameDims D (max D.hMax 1) (max D.vMax 1) = _
      rw [Nat.max_eq_right hD, Nat.max_eq_right vD]
    have a1 : ∀ x : Component, x.horizontalSample = 1 → x.verticalSample = 1 →
        compDec (frameDims D 1 1) x = frameDims D 1 1 := by
      intro x g1 g2
      unfold compDec
      rw [g1, g2]
      show frameDims (frameDims D 1 1) (max 1 1) (max 1 1) = _
      rw [Nat.max_self]
      exact frameDims_twice D Nat.one_pos Nat.one_pos (Nat.le_refl _) (Nat.le_refl _)
    rw [a0, a1 _ rfl rfl, a1 _ rfl rfl]
    exact ⟨rfl, rfl, rfl⟩
  obtain ⟨g0, g1, g2⟩ := dims (sofStart d sof (UInt16.ofNat h) (UInt16.ofNat w) 3) hm vm
  rw [g2, g1, g0]
  unfold namedFrameDec
  have hx : (frameDims (sofStart d sof (UInt16.ofNat h) (UInt16.ofNat w) 3) 1 1).mcuX =
      (w + 1 * 8 - 1) / (1 * 8) := by
    show ((UInt16.ofNat w).toNat + 1 * 8 - 1) / (1 * 8) = _
    rw [u16_ofNat_toNat hw]
  generalize frameDims (sofStart d sof (UInt16.ofNat h) (UInt16.ofNat w) 3) 1 1 = D at hx ⊢
  rw [← hx]
  rfl

/-! ### Scan header -/

theorem findComponent_named {d : Decoder} {a b c : UInt8} (N : Naming a b c) {c0 c1 c2 : Component}
    (h0 : c0.id = a) (h1 : c1.id = b) (h2 : c2.id = c) (rd : List UInt8) :
    findComponent a [c0, c1, c2] 3 0 ⟨d, rd⟩ = (.ok 0, ⟨d, rd⟩) ∧
    findComponent b [c0, c1, c2] 3 0 ⟨d, rd⟩ = (.ok 1, ⟨d, rd⟩) ∧
    findComponent c [c0, c1, c2] 3 0 ⟨d, rd⟩ = (.ok 2, ⟨d, rd⟩) := by
  have hn : [a, b, c].Nodup := N.nodup_iff.2 (by decide)
  simp only [List.nodup_cons, List.mem_cons, List.not_mem_nil, or_false, not_or] at hn
  obtain ⟨⟨n1, n2⟩, n3, -⟩ := hn
  have x0 : M.idx [c0, c1, c2] 0 (⟨d, rd⟩ : H) = (.ok c0, ⟨d, rd⟩) := rfl
  have x1 : M.idx [c0, c1, c2] (0 + 1) (⟨d, rd⟩ : H) = (.ok c1, ⟨d, rd⟩) := rfl
  have x2 : M.idx [c0, c1, c2] (0 + 1 + 1) (⟨d, rd⟩ : H) = (.ok c2, ⟨d, rd⟩) := rfl
  refine ⟨?_, ?_, ?_⟩
  · rw [findComponent, M.bind_ok x0, if_pos h0]
    rfl
  · rw [findComponent, M.bind_ok x0, if_neg (by rw [h0]; exact n1), findComponent, M.bind_ok x1, if_pos h1]
    rfl
  · rw [findComponent, M.bind_ok x0, if_neg (by rw [h0]; exact n2), findComponent, M.bind_ok x1,
      if_neg (by rw [h1]; exact n3), findComponent, M.bind_ok x2, if_pos h2]
    rfl

theorem sos_named (d : Decoder) {a b c : UInt8} (N : Naming a b c) {c0 c1 c2 : Component} (hc : d.components = [c0, c1, c2])
    (h0 : c0.id = a) (h1 : c1.id = b) (h2 : c2.id = c) (hi : d.info.components = 3) (t0 t1 t2 : UInt8)
    (rest : List UInt8) :
    parseSos ⟨d, [0, 12, 3, a, t0, b, t1, c, t2, 0, 63, 0] ++ rest⟩ =
      (.ok (), ⟨colourScanDec d c0 c1 c2 t0 t1 t2, rest⟩) := by
  unfold parseSos
  have r1 : readU16 .exhausted ⟨d, [0, 12, 3, a, t0, b, t1, c, t2, 0, 63, 0] ++ rest⟩ =
    (.ok 12, ⟨d, [3, a, t0, b, t1, c, t2, 0, 63, 0] ++ rest⟩) := rfl
  have r2 : readByte ⟨d, [3, a, t0, b, t1, c, t2, 0, 63, 0] ++ rest⟩ =
    (.ok 3, ⟨d, [a, t0, b, t1, c, t2, 0, 63, 0] ++ rest⟩) := rfl
  rw [M.bind_ok r1, M.bind_ok r2, M.bind_ok (modDec_apply _ _ _), if_neg (by decide),
    if_neg (by decide), M.bind_ok (getDec_apply _ _)]
  dsimp only
  rw [if_neg (by rw [hi]; decide)]
  have key : ∀ d1 : Decoder, d1.components = [c0, c1, c2] → d1.info.components = 3 →
      sosComponents (3 : UInt8).toNat 0 (List.replicate MAX_COMPONENTS false)
        ⟨d1, [a, t0, b, t1, c, t2, 0, 63, 0] ++ rest⟩ = (.ok (), ⟨{ d1 with
          components := [withTables c0 t0, withTables c1 t1, withTables c2 t2]
          zOrder := ((d1.zOrder.set 0 0).set 1 1).set 2 2 }, [0, 63, 0] ++ rest⟩) := by
    intro d1 hc1 hi1
    obtain ⟨⟨l1, l2, l3⟩, n1, n2, n3⟩ := N.seen
    have g1 := sos_step (d := d1) (n := 2) (i := 0) (j := 0) (seen := List.replicate MAX_COMPONENTS false)
      (id := a) (y := t0) (rest := [b, t1, c, t2, 0, 63, 0] ++ rest)
      (by rw [hc1]; exact l1) n1
      (by rw [hc1, hi1]; exact fun rd => (findComponent_named N h0 h1 h2 rd).1) (by rw [hi1]; decide)
    obtain ⟨d2, hd2⟩ : ∃ d2, ({ d1 with
      components := d1.components.modify 0 (withTables · t0), zOrder := d1.zOrder.set 0 0 } : Decoder) = d2 :=
      ⟨_, rfl⟩
    rw [hd2] at g1
    have hc2 : d2.components = [withTables c0 t0, c1, c2] := by rw [← hd2, hc1]; rfl
    have hi2 : d2.info.components = 3 := by rw [← hd2]; exact hi1
    have g2 := sos_step (d := d2) (n := 1) (i := 1) (j := 1)
      (seen := (List.replicate MAX_COMPONENTS false).set a.toNat true)
      (id := b) (y := t1) (rest := [c, t2, 0, 63, 0] ++ rest)
      (by rw [hc2]; exact l2) n2
      (by rw [hc2, hi2]; exact fun rd => (findComponent_named N (c0 := withTables c0 t0) h0 h1 h2 rd).2.1)
      (by rw [hi2]; decide)
    obtain ⟨d3, hd3⟩ : ∃ d3, ({ d2 with
      components := d2.components.modify 1 (withTables · t1), zOrder := d2.zOrder.set 1 1 } : Decoder) = d3 :=
      ⟨_, rfl⟩
    rw [hd3] at g2
    have hc3 : d3.components = [withTables c0 t0, withTables c1 t1, c2] := by rw [← hd3, hc2]; rfl
    have hi3 : d3.info.components = 3 := by rw [← hd3]; exact hi2
    have g3 := sos_step (d := d3) (n := 0) (i := 2) (j := 2)
      (seen := ((List.replicate MAX_COMPONENTS false).set a.toNat true).set b.toNat true)
      (id := c) (y := t2) (rest := [0, 63, 0] ++ rest)
      (by rw [hc3]; exact l3) n3
      (by rw [hc3, hi3]; exact fun rd => (findComponent_named N (c0 := withTables c0 t0)
            (c1 := withTables c1 t1) h0 h1 h2 rd).2.2)
      (by rw [hi3]; decide)
    refine Eq.trans g1 (Eq.trans g2 (Eq.trans g3 ?_))
    show (Out.ok (), _) = _
    congr 2
    rw [hc3, ← hd3, ← hd2]
    rfl
  have r3 : ∀ d, readByte ⟨d, [0, 63, 0] ++ rest⟩ = (.ok 0, ⟨d, [63, 0] ++ rest⟩) := fun _ => rfl
  have r4 : ∀ d, readByte ⟨d, [63, 0] ++ rest⟩ = (.ok 63, ⟨d, [0] ++ rest⟩) := fun _ => rfl
  have r5 : ∀ d, readByte ⟨d, [0] ++ rest⟩ = (.ok 0, ⟨d, rest⟩) := fun _ => rfl
  rw [M.bind_ok (key { d with numScans := (3 : UInt8).toNat } hc hi), M.bind_ok (r3 _), M.bind_ok (modDec_apply _ _ _), M.bind_ok (r4 _),
    M.bind_ok (modDec_apply _ _ _), M.bind_ok (r5 _), M.bind_ok (modDec_apply _ _ _),
    if_neg (by decide), M.bind_ok (modDec_apply _ _ _)]
  rfl

/-! ### The file -/

namespace Spec.ColourJpeg

/-- The segments before the scan header, with other identifiers of the components. -/
def namedSegments (g : ColourJpeg) (a b c : UInt8) : List Segment :=
  [⟨0xDB, 0 :: g.quantY⟩, ⟨0xDB, 1 :: g.quantC⟩,
   ⟨0xC0, 8 :: (twoBytes g.height ++ twoBytes g.width ++ [3, a, 0x11, 0, b, 0x11, 1, c, 0x11, 1])⟩,
   ⟨0xC4, 0x00 :: (g.dcY.counts ++ g.dcY.symbols)⟩, ⟨0xC4, 0x10 :: (g.acY.counts ++ g.acY.symbols)⟩,
   ⟨0xC4, 0x01 :: (g.dcC.counts ++ g.dcC.symbols)⟩, ⟨0xC4, 0x11 :: (g.acC.counts ++ g.acC.symbols)⟩] ++
    if g.restart = 0 then [] else [⟨0xDD, twoBytes g.restart⟩]

/-- The file of an image without subsampling, with the identifiers `a`, `b` and `c` for its components. -/
def named (g : ColourJpeg) (a b c : UInt8) : List UInt8 :=
  [0xFF, 0xD8] ++ (g.namedSegments a b c).flatMap Segment.bytes ++
  [0xFF, 0xDA, 0, 12, 3, a, 0x00, b, 0x11, c, 0x11, 0, 63, 0] ++
  g.data ++ [0xFF, 0xD9] ++ g.trailer

end Spec.ColourJpeg

theorem named_dims {a b c : UInt8} (N : Naming a b c) {d : Decoder} {X : Nat} {q0 q1 : List Nat} {t0 t1 t2 : UInt8}
    (hc : d.components = [withTables (namedComp X q0 q1 a b c 0) t0, withTables (namedComp X q0 q1 a b c 1) t1,
      withTables (namedComp X q0 q1 a b c 2) t2]) (hm : d.hMax = 1) :
    d.checkComponentDimensions = .ok () := by
  unfold Decoder.checkComponentDimensions
  rw [hc, hm]
  rcases N.cases with ⟨rfl, rfl, rfl⟩ | ⟨rfl, rfl, rfl⟩ | ⟨rfl, rfl, rfl⟩ | ⟨rfl, rfl, rfl⟩ | ⟨rfl, rfl, rfl⟩ |
    ⟨rfl, rfl, rfl⟩ <;>
    simp [namedComp, withTables, nameOf, checkDims, colourComp]

/-- The headers of the file. -/
theorem named_headers_from {g : ColourJpeg} (V : g.Valid) {n0 n1 n2 : UInt8}
    (N : Naming n0 n1 n2) {d0 : Decoder} (U : Reusable d0 1 1)
    (hics : d0.inputColorspace = .ycbcr) (hw : g.width ≤ d0.options.getMaxWidth)
    (hh : g.height ≤ d0.options.getMaxHeight) :
    ∃ d c0 c1 c2, decodeHeaders ⟨d0, g.named n0 n1 n2⟩ =
        (.ok (), ⟨d, g.data ++ 0xFF :: 0xD9 :: g.trailer⟩) ∧
      ColourReady d c0 c1 c2 g.width g.height 1 1 ∧ CompTables d [c0, c1, c2] g.codes ∧
      (g.restart ≠ 0 → d.restartInterval = g.restart ∧ d.todo = g.restart) ∧ Reusable d 1 1 ∧
      d.idctFn = d0.idctFn ∧ d.colorFn = d0.colorFn ∧ d.cpu = d0.cpu ∧ d.options = d0.options ∧
      ∀ i c, [c0, c1, c2][i]? = some c → c.quantTable = naturalQuant (g.quantOf i) := by
  obtain ⟨dcY, hdcY, bdcY⟩ := V.dcY.table
  obtain ⟨acY, hacY, bacY⟩ := V.acY.table
  obtain ⟨dcC, hdcC, bdcC⟩ := V.dcC.table
  obtain ⟨acC, hacC, bacC⟩ := V.acC.table
  obtain ⟨q0, hq0⟩ : ∃ q, unZigZag (g.quantY.map (·.toNat)) = q := ⟨_, rfl⟩
  obtain ⟨q1, hq1⟩ : ∃ q, unZigZag (g.quantC.map (·.toNat)) = q := ⟨_, rfl⟩
  obtain ⟨d1, hd1⟩ : ∃ d, ({ d0 with qtTables := d0.qtTables.set 0 (some q0) } : Decoder) = d := ⟨_, rfl⟩
  obtain ⟨d2, hd2⟩ : ∃ d, ({ d1 with qtTables := d1.qtTables.set 1 (some q1) } : Decoder) = d := ⟨_, rfl⟩
  obtain ⟨d3, hd3⟩ : ∃ d, namedFrameDec .baselineDct d2 g.width g.height q0 q1 n0 n1 n2 = d := ⟨_, rfl⟩
  obtain ⟨d4, hd4⟩ : ∃ d, setTable d3 true 0 dcY = d := ⟨_, rfl⟩
  obtain ⟨d5, hd5⟩ : ∃ d, setTable d4 false 0 acY = d := ⟨_, rfl⟩
  obtain ⟨d6, hd6⟩ : ∃ d, setTable d5 true 1 dcC = d := ⟨_, rfl⟩
  obtain ⟨d7, hd7⟩ : ∃ d, setTable d6 false 1 acC = d := ⟨_, rfl⟩
  obtain ⟨d8, hd8⟩ : ∃ d, (if g.restart = 0 then d7 else { d7 with restartInterval := g.restart, todo := g.restart }) = d :=
    ⟨_, rfl⟩
  have s1 := dqt_one d0 (k := 0) (by decide) V.quantY
  rw [hq0, hd1] at s1
  have s2 := dqt_one d1 (k := 1) (by decide) V.quantC
  rw [hq1, hd2] at s2
  have hqt0 : d2.qtTables[0]? = some (some q0) := by
    rw [← hd2, ← hd1]
    show ((d0.qtTables.set 0 _).set 1 _)[0]? = _
    rw [List.getElem?_set_ne (by decide), List.getElem?_set_self (by rw [U.qt]; decide)]
  have hqt1 : d2.qtTables[1]? = some (some q1) := by
    rw [← hd2, ← hd1]
    show ((d0.qtTables.set 0 _).set 1 _)[1]? = _
    rw [List.getElem?_set_self (by rw [List.length_set, U.qt]; decide)]
  have s3 : SegOk 0xC0 (8 :: (twoBytes g.height ++ twoBytes g.width ++
      [3, n0, 0x11, 0, n1, 0x11, 1, n2, 0x11, 1])) d2 d3 := by
    rw [← hd3]
    refine sof_named .baselineDct d2 N ?_ ?_ (by have := V.wLe; omega) (by have := V.hLe; omega)
      (by have := V.w0; omega) (by have := V.h0; omega) ?_ ?_ hqt0 hqt1
    · rw [← hd2, ← hd1]; exact U.hMax.2
    · rw [← hd2, ← hd1]; exact U.vMax.2
    · rw [← hd2, ← hd1]; exact hw
    · rw [← hd2, ← hd1]; exact hh
  have p3 : d3.isProgressive = false := by rw [← hd3, ← hd2, ← hd1]; exact U.prog
  have p4 : d4.isProgressive = false := by rw [← hd4]; exact p3
  have p5 : d5.isProgressive = false := by rw [← hd5]; exact p4
  have p6 : d6.isProgressive = false := by rw [← hd6]; exact p5
  have s4 := dht_one d3 true (k := 0) (by decide) V.dcY.len V.dcY.sum V.dcY.max
    (by rw [p3]; exact hdcY.table)
  have s5 := dht_one d4 false (k := 0) (by decide) V.acY.len V.acY.sum V.acY.max
    (by rw [p4]; exact hacY.table)
  have s6 := dht_one d5 true (k := 1) (by decide) V.dcC.len V.dcC.sum V.dcC.max
    (by rw [p5]; exact hdcC.table)
  have s7 := dht_one d6 false (k := 1) (by decide) V.acC.len V.acC.sum V.acC.max
    (by rw [p6]; exact hacC.table)
  rw [hd4] at s4
  rw [hd5] at s5
  rw [hd6] at s6
  rw [hd7] at s7
  have hsegs : SegsOk (g.namedSegments n0 n1 n2) d0 d8 := by
    refine SegsOk.append.2 ⟨d7, ⟨d1, s1, d2, s2, d3, s3, d4, s4, d5, s5, d6, s6, d7, s7, rfl⟩, ?_⟩
    by_cases hr : g.restart = 0
    · rw [if_pos hr]
      show d8 = d7
      rw [← hd8, if_pos hr]
    · rw [if_neg hr]
      refine ⟨d8, ?_, rfl⟩
      have := dri_one d7 V.restart
      rw [← hd8, if_neg hr]
      exact this
  have hd8' : d8 = { d7 with restartInterval := d8.restartInterval, todo := d8.todo } := by
    rw [← hd8]
    split <;> rfl
  have hrt : g.restart ≠ 0 → d8.restartInterval = g.restart ∧ d8.todo = g.restart := by
    intro h0
    rw [← hd8, if_neg h0]
    exact ⟨rfl, rfl⟩
  obtain ⟨ri, hri⟩ : ∃ n, d8.restartInterval = n := ⟨_, rfl⟩
  obtain ⟨td, htd⟩ : ∃ n, d8.todo = n := ⟨_, rfl⟩
  rw [hri, htd] at hd8'
  have hd8 := hd8'.symm
  clear hd8'
  have hhead : ∀ s ∈ (g.namedSegments n0 n1 n2), s.Header := by
    intro s hs
    have hx : ∀ t : HuffSpec, ∀ b, t.Valid b → t.counts.length + t.symbols.length ≤ 272 := by
      intro t b v
      have := v.len
      have := v.max
      omega
    have h1 := V.quantY
    have h2 := V.quantC
    have h3 := hx _ _ V.dcY
    have h4 := hx _ _ V.acY
    have h5 := hx _ _ V.dcC
    have h6 := hx _ _ V.acC
    unfold ColourJpeg.namedSegments at hs
    rcases List.mem_append.1 hs with hs | hs
    case inr =>
      by_cases hr : g.restart = 0
      · rw [if_pos hr] at hs
        cases hs
      · rw [if_neg hr, List.mem_singleton] at hs
        subst hs
        exact ⟨by simp [twoBytes], (by decide : (0xDD : UInt8) ≠ 0xFF), (by decide : (0xDD : UInt8) ≠ 0xDA)⟩
    simp only [List.mem_cons, List.not_mem_nil, or_false] at hs
    rcases hs with rfl | rfl | rfl | rfl | rfl | rfl | rfl
    · exact ⟨by simp; omega, (by decide : (0xDB : UInt8) ≠ 0xFF), (by decide : (0xDB : UInt8) ≠ 0xDA)⟩
    · exact ⟨by simp; omega, (by decide : (0xDB : UInt8) ≠ 0xFF), (by decide : (0xDB : UInt8) ≠ 0xDA)⟩
    · exact ⟨by simp [twoBytes], (by decide : (0xC0 : UInt8) ≠ 0xFF), (by decide : (0xC0 : UInt8) ≠ 0xDA)⟩
    · exact ⟨by simp; omega, (by decide : (0xC4 : UInt8) ≠ 0xFF), (by decide : (0xC4 : UInt8) ≠ 0xDA)⟩
    · exact ⟨by simp; omega, (by decide : (0xC4 : UInt8) ≠ 0xFF), (by decide : (0xC4 : UInt8) ≠ 0xDA)⟩
    · exact ⟨by simp; omega, (by decide : (0xC4 : UInt8) ≠ 0xFF), (by decide : (0xC4 : UInt8) ≠ 0xDA)⟩
    · exact ⟨by simp; omega, (by decide : (0xC4 : UInt8) ≠ 0xFF), (by decide : (0xC4 : UInt8) ≠ 0xDA)⟩
  obtain ⟨c, hc⟩ : ∃ c, namedComp ((g.width + 1 * 8 - 1) / (1 * 8)) q0 q1 n0 n1 n2 = c := ⟨_, rfl⟩
  have hcomp : d8.components = [c 0, c 1, c 2] := by
    rw [← hd8, ← hd7, ← hd6, ← hd5, ← hd4, ← hd3, ← hc]; rfl
  have hinfo : d8.info.components = 3 := by
    rw [← hd8, ← hd7, ← hd6, ← hd5, ← hd4, ← hd3]; rfl
  obtain ⟨rest, hrest⟩ : ∃ r, g.data ++ 0xFF :: 0xD9 :: g.trailer = r :=
    ⟨_, rfl⟩
  have hsos := sos_named d8 N hcomp (by rw [← hc]; rfl) (by rw [← hc]; rfl) (by rw [← hc]; rfl) hinfo 0x00
    0x11 0x11 rest
  have hdec : decodeHeaders ⟨d0, g.named n0 n1 n2⟩ =
      (.ok (), ⟨colourScanDec d8 (c 0) (c 1) (c 2) 0x00 0x11 0x11, rest⟩) := by
    have hb : g.named n0 n1 n2 = 0xFF :: 0xD8 :: ((g.namedSegments n0 n1 n2).flatMap Segment.bytes ++ 0xFF :: 0xDA ::
        ([0, 12, 3, n0, 0x00, n1, 0x11, n2, 0x11, 0, 63, 0] ++ rest)) := by
      unfold ColourJpeg.named
      rw [← hrest]
      simp
    rw [hb]
    exact (decodeHeaders_segments hhead).2 ⟨d8, hsegs, HL.sos (by decide) (by split <;> decide) hsos⟩
  have hdt : d8.dcTables = (d0.dcTables.set 0 (some dcY)).set 1 (some dcC) := by
    rw [← hd8, ← hd7, ← hd6, ← hd5, ← hd4, ← hd3, ← hd2, ← hd1]; rfl
  have hat : d8.acTables = (d0.acTables.set 0 (some acY)).set 1 (some acC) := by
    rw [← hd8, ← hd7, ← hd6, ← hd5, ← hd4, ← hd3, ← hd2, ← hd1]; rfl
  have hdt0 : d8.dcTables[0]? = some (some dcY) := by
    rw [hdt, List.getElem?_set_ne (by decide), List.getElem?_set_self (by rw [U.dc]; decide)]
  have hdt1 : d8.dcTables[1]? = some (some dcC) := by
    rw [hdt, List.getElem?_set_self (by rw [List.length_set, U.dc]; decide)]
  have hat0 : d8.acTables[0]? = some (some acY) := by
    rw [hat, List.getElem?_set_ne (by decide), List.getElem?_set_self (by rw [U.ac]; decide)]
  have hat1 : d8.acTables[1]? = some (some acC) := by
    rw [hat, List.getElem?_set_self (by rw [List.length_set, U.ac]; decide)]
  have f1 := Nat.one_pos
  have f3 := Nat.one_pos
  have hwn : (UInt16.ofNat g.width).toNat = g.width := u16_ofNat_toNat (by have := V.wLe; omega)
  have hhn : (UInt16.ofNat g.height).toNat = g.height := u16_ofNat_toNat (by have := V.hLe; omega)
  have hmx : d8.mcuX = (g.width + 1 * 8 - 1) / (1 * 8) := by
    rw [← hd8, ← hd7, ← hd6, ← hd5, ← hd4, ← hd3]
    show ((UInt16.ofNat g.width).toNat + 1 * 8 - 1) / (1 * 8) = _
    rw [hwn]
  have hmy : d8.mcuY = (g.height + 1 * 8 - 1) / (1 * 8) := by
    rw [← hd8, ← hd7, ← hd6, ← hd5, ← hd4, ← hd3]
    show ((UInt16.ofNat g.height).toNat + 1 * 8 - 1) / (1 * 8) = _
    rw [hhn]
  have hint : d8.interleaved = !decide (1 = 1 ∧ 1 = 1) := by
    rw [← hd8, ← hd7, ← hd6, ← hd5, ← hd4, ← hd3, ← hd2, ← hd1]
    show (if 1 ≠ 1 ∨ 1 ≠ 1 then true else d0.interleaved) = _
    by_cases e : 1 = 1 ∧ 1 = 1
    · rw [if_neg (by omega), decide_eq_true e]
      cases h : d0.interleaved
      · rfl
      · exact absurd e (U.inter h)
    · rw [if_pos (by omega), decide_eq_false e]; rfl
  have y1 : ((0x00 : UInt8) >>> 4).toNat < 4 := by decide
  have y2 : ((0x00 : UInt8) &&& 0xF).toNat < 4 := by decide
  have z1 : ((0x11 : UInt8) >>> 4).toNat < 4 := by decide
  have z2 : ((0x11 : UInt8) &&& 0xF).toNat < 4 := by decide
  have y3 : ((0x00 : UInt8) >>> 4).toNat &&& 3 = 0 := by decide
  have y4 : ((0x00 : UInt8) &&& 0xF).toNat &&& 3 = 0 := by decide
  have z3 : ((0x11 : UInt8) >>> 4).toNat &&& 3 = 1 := by decide
  have z4 : ((0x11 : UInt8) &&& 0xF).toNat &&& 3 = 1 := by decide
  have hh1 : d8.hMax = 1 := by rw [← hd8, ← hd7, ← hd6, ← hd5, ← hd4, ← hd3]; rfl
  have hv1 : d8.vMax = 1 := by rw [← hd8, ← hd7, ← hd6, ← hd5, ← hd4, ← hd3]; rfl
  have hrr : 1 = 1 ∧ 1 = 1 → d8.subSampleRatio = .none := by
    intro h
    rw [← hd8, ← hd7, ← hd6, ← hd5, ← hd4, ← hd3, ← hd2, ← hd1]; exact U.ratio h
  have hpl : d8.interleaved = false → d8.hMax = 1 ∧ d8.vMax = 1 ∧ d8.subSampleRatio = .none := by
    intro h
    rw [hint] at h
    by_cases e : 1 = 1 ∧ 1 = 1
    · exact ⟨hh1.trans e.1, hv1.trans e.2, hrr e⟩
    · rw [decide_eq_false e] at h
      cases h
  rw [hrest]
  have FR : Frame (colourScanDec d8 (c 0) (c 1) (c 2) 0x00 0x11 0x11) g.width g.height 1 1 := by
    refine ⟨?_, ?_, V.w0, V.h0, ⟨f1, f3⟩, ?_, ?_, hint, ?_, ?_, ?_, ?_⟩
    · show d8.info.width.toNat = _
      rw [← hd8, ← hd7, ← hd6, ← hd5, ← hd4, ← hd3]
      exact hwn
    · show d8.info.height.toNat = _
      rw [← hd8, ← hd7, ← hd6, ← hd5, ← hd4, ← hd3]
      exact hhn
    · exact hh1
    · exact hv1
    · exact hrr
    · show d8.mcuX = _
      rw [hmx, Nat.mul_comm 8]
    · show d8.mcuY = _
      rw [hmy, Nat.mul_comm 8]
    · refine ⟨_, _, rfl, ?_, ?_, ?_, ?_, ?_⟩
      · exact fun h => absurd ⟨rfl, rfl⟩ h
      · rw [← hc]; rfl
      · rw [← hc]; rfl
      · show _ = 1 * (d8.mcuX * 8)
        rw [hmx, ← hc]; rfl
      · intro x hx
        show _ ∧ _ ∧ _ ∧ _ = d8.mcuX * 8
        rw [hmx]
        simp only [List.mem_cons, List.not_mem_nil, or_false] at hx
        rcases hx with rfl | rfl
        · rw [← hc]
          exact ⟨fun h => absurd ⟨rfl, rfl⟩ h, rfl, rfl, Nat.one_mul _⟩
        · rw [← hc]
          exact ⟨fun h => absurd ⟨rfl, rfl⟩ h, rfl, rfl, Nat.one_mul _⟩
  have hdim : (colourScanDec d8 (c 0) (c 1) (c 2) 0x00 0x11 0x11).checkComponentDimensions = .ok () := by
    refine named_dims N (X := (g.width + 1 * 8 - 1) / (1 * 8)) (q0 := q0) (q1 := q1) (t0 := 0x00) (t1 := 0x11)
      (t2 := 0x11) ?_ hh1
    rw [hc]
    rfl
  refine ⟨_, withTables (c 0) 0x00, withTables (c 1) 0x11, withTables (c 2) 0x11, hdec,
    ⟨⟨FR, rfl, hdim, ?_, (by decide), (by decide), V.wLe, V.hLe⟩, ?_, ?_⟩, ?_, fun h0 => hrt h0, ?_, ?_, ?_, ?_, ?_, ?_⟩
  · show d8.inputColorspace = _
    rw [← hd8, ← hd7, ← hd6, ← hd5, ← hd4, ← hd3, ← hd2, ← hd1]; exact hics
  · intro x hx
    simp only [List.mem_cons, List.not_mem_nil, or_false] at hx
    rcases hx with rfl | rfl | rfl <;> rw [← hc] <;> rfl
  · intro x hx
    show _ ∧ _ ∧ ∃ dc ac, d8.dcTables[_]? = _ ∧ d8.acTables[_]? = _
    simp only [List.mem_cons, List.not_mem_nil, or_false] at hx
    rcases hx with rfl | rfl | rfl
    · exact ⟨y1, y2, dcY, acY, hdt0, hat0⟩
    · exact ⟨z1, z2, dcC, acC, hdt1, hat1⟩
    · exact ⟨z1, z2, dcC, acC, hdt1, hat1⟩
  · intro i x hx
    show ∃ dc ac, d8.dcTables[_]? = _ ∧ d8.acTables[_]? = _ ∧ _
    have tY : Tables (g.codes 0) dcY acY := ⟨⟨_, _, hdcY, bdcY⟩, ⟨_, _, hacY, bacY⟩⟩
    have tC : ∀ i, Tables (g.codes (i + 1)) dcC acC := fun i => ⟨⟨_, _, hdcC, bdcC⟩, ⟨_, _, hacC, bacC⟩⟩
    match i, hx with
    | 0, hx =>
      cases hx
      exact ⟨dcY, acY, (congrArg _ y3).trans hdt0, (congrArg _ y4).trans hat0, tY⟩
    | 1, hx =>
      cases hx
      exact ⟨dcC, acC, (congrArg _ z3).trans hdt1, (congrArg _ z4).trans hat1, tC 0⟩
    | 2, hx =>
      cases hx
      exact ⟨dcC, acC, (congrArg _ z3).trans hdt1, (congrArg _ z4).trans hat1, tC 1⟩
  · refine ⟨?_, ?_, fun h => ?_, hpl, ?_, ?_, ?_, ?_⟩
    · show 0 < d8.hMax ∧ d8.hMax ≤ 1
      rw [hh1]; exact ⟨f1, Nat.le_refl _⟩
    · show 0 < d8.vMax ∧ d8.vMax ≤ 1
      rw [hv1]; exact ⟨f3, Nat.le_refl _⟩
    · have h' : d8.interleaved = true := h
      rw [hint] at h'
      intro e
      rw [decide_eq_true e] at h'
      cases h'
    · show d8.isProgressive = _
      rw [← hd8, ← hd7]; exact p6
    · show d8.qtTables.length = 4
      rw [← hd8, ← hd7, ← hd6, ← hd5, ← hd4, ← hd3]; rfl
    · show d8.dcTables.length = 4
      rw [hdt, List.length_set, List.length_set, U.dc]
    · show d8.acTables.length = 4
      rw [hat, List.length_set, List.length_set, U.ac]
  · show d8.idctFn = _
    rw [← hd8, ← hd7, ← hd6, ← hd5, ← hd4, ← hd3, ← hd2, ← hd1]; rfl
  · show d8.colorFn = _
    rw [← hd8, ← hd7, ← hd6, ← hd5, ← hd4, ← hd3, ← hd2, ← hd1]; rfl
  · show d8.cpu = _
    rw [← hd8, ← hd7, ← hd6, ← hd5, ← hd4, ← hd3, ← hd2, ← hd1]; rfl
  · show d8.options = _
    rw [← hd8, ← hd7, ← hd6, ← hd5, ← hd4, ← hd3, ← hd2, ← hd1]; rfl
  · intro i x hx
    match i, hx with
    | 0, hx => cases hx; rw [← hc, ← naturalQuant_eq (show (g.quantOf 0).length = 64 from V.quantY)]; exact hq0.symm
    | 1, hx => cases hx; rw [← hc, ← naturalQuant_eq (show (g.quantOf 1).length = 64 from V.quantC)]; exact hq1.symm
    | 2, hx => cases hx; rw [← hc, ← naturalQuant_eq (show (g.quantOf 2).length = 64 from V.quantC)]; exact hq1.symm

end Zune
