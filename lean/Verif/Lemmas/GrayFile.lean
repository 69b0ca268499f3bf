import Verif.Lemmas.Gray
import Verif.Lemmas.Geometry
import Verif.Props.Strips
import Verif.Props.Idct
/-! From the coefficients of a grayscale image to its bytes. -/

namespace Zune
open Spec

/-- The low byte of a sample. -/
def Spec.lowByte (v : I16) : UInt8 := UInt8.ofNat (v.toInt % 256).toNat

theorem isByteOf_eq {b : UInt8} {v : I16} (h : IsByteOf b v) : b = lowByte v := by
  apply UInt8.toNat_inj.1
  unfold IsByteOf at h
  unfold lowByte
  rw [UInt8.toNat_ofNat']
  omega

/-- The sample in row `y` and column `x` of a component with `mw` blocks in a row. -/
def Spec.planeSample (f : IdctFn) (qt : List Nat) (mw : Nat) (blocks : List (List Int)) (y x : Nat) :
    I16 :=
  (sample (f.block (coded (blocks.getD (y / 8 * mw + x / 8) [])) qt) (y % 8) (x % 8)).getD 0

/-- `h` rows of `w` samples. -/
def Spec.grayBytes (f : IdctFn) (qt : List Nat) (w h : Nat) (blocks : List (List Int)) : List UInt8 :=
  (List.range (h * w)).map fun p => lowByte (planeSample f qt ((w + 7) / 8) blocks (p / w) (p % w))

theorem grayBytes_length (f : IdctFn) (qt : List Nat) (w h : Nat) (blocks : List (List Int)) :
    (grayBytes f qt w h blocks).length = h * w := by simp [grayBytes]

theorem blockAt_codedRow (row : List (List Int)) {k : Nat} (hk : k < row.length) :
    blockAt (codedRow row) k = coded (row.getD k []) := by
  have hl : ∀ l ∈ row.map coded, l.length = 64 := by
    intro l hl
    obtain ⟨b, -, rfl⟩ := List.mem_map.1 hl
    exact coded_length b
  unfold blockAt
  apply List.ext_getElem?
  intro i
  by_cases hi : i < 64
  · rw [List.getElem?_take_of_lt hi, List.getElem?_drop, codedRow, Nat.mul_comm,
      getElem?_flatten_const hl hi, List.getElem?_map, List.getD_eq_getElem?_getD,
      List.getElem?_eq_getElem hk]
    rfl
  · rw [List.getElem?_eq_none (by rw [List.length_take]; omega),
      List.getElem?_eq_none (by rw [coded_length]; omega)]

theorem codedRow_length (row : List (List Int)) : (codedRow row).length = row.length * 64 := by
  unfold codedRow
  rw [length_flatten_const (n := 64), List.length_map]
  intro l hl
  obtain ⟨b, -, rfl⟩ := List.mem_map.1 hl
  exact coded_length b

/-- The bytes of a strip. -/
theorem gray_job {s : Scan} {c : Component} {row : List (List Int)} (hcomps : s.comps = [c])
    (v1 : c.verticalSample = 1) (h1 : c.horizontalSample = 1) (hin : s.inCs = .grayscale)
    (hout : s.outCs = .grayscale) (hrow : row.length = (s.width + 7) / 8)
    (hst : c.widthStride = 8 * row.length) (hw0 : 0 < s.width)
    (hw' : 64 * row.length < 9 * s.width) (hchunk : s.chunk = 8 * s.width) :
    grayJob s row = .ok (grayBytes s.idct c.quantTable s.width 8 row) := by
  have hpos : 0 < row.length := by omega
  have hshape : StripShape (codedRow row) 1 row.length (1 * 1) 1 :=
    ⟨hpos, by decide, by rw [codedRow_length]; omega, by rw [codedRow_length]; omega⟩
  obtain ⟨plane, p1, p2, p3, -⟩ := c29_layout s.idct (qt := c.quantTable) hshape
  obtain ⟨out, o1, o2, o3⟩ := (c37_gray_partial (f := s.color) (c0 := c) (cs := [])
    (inCs := .grayscale) (Or.inr rfl) (w := s.width) (pw := 8 * row.length) (rows := 8) (y := plane)
    (ps := []) (out := List.replicate s.chunk 0) (by omega) hw0 (by decide) (by omega)
    (by rw [List.length_replicate, hchunk])).1 (by omega)
  have e : grayJob s row = .ok out := by
    unfold grayJob postProcess
    rw [hcomps, hin, hout]
    dsimp only [List.getElem?_cons_zero]
    have hi : idctComponent s.idct [c] [codedRow row, [], []] c.horizontalSample c.verticalSample 0 =
        .ok plane := by
      unfold idctComponent
      dsimp only [List.getElem?_cons_zero]
      rw [h1, v1, hst, if_pos rfl]
      exact p1
    show (Out.collect [idctComponent s.idct [c] [codedRow row, [], []] c.horizontalSample
      c.verticalSample 0]).bind _ = _
    rw [hi]
    exact o1
  rw [e]
  congr 1
  apply List.ext_getElem?
  intro p
  by_cases hp : p < 8 * s.width
  · have hy : p / s.width < 8 := Nat.div_lt_of_lt_mul (by rw [Nat.mul_comm]; exact hp)
    have hx : p % s.width < s.width := Nat.mod_lt _ hw0
    obtain ⟨b, v, q1, q2, q3⟩ := o3 _ _ hy hx
    rw [Nat.div_add_mod'] at q1
    obtain ⟨r, r1, x, r2, r3⟩ := p3 0 (p % s.width / 8) (p / s.width) (p % s.width % 8) (by decide)
      (by omega) hy (by omega)
    rw [Nat.mul_zero, Nat.zero_add, Nat.div_add_mod] at r3
    rw [q2] at r3
    cases r3
    rw [Nat.zero_mul, Nat.zero_add, blockAt_codedRow row (by omega)] at r1
    rw [q1, grayBytes, List.getElem?_map, List.getElem?_range hp]
    simp only [Option.map_some]
    rw [isByteOf_eq q3, planeSample, ← hrow, Nat.div_eq_of_lt hy, Nat.zero_mul, Nat.zero_add,
      Nat.mod_eq_of_lt hy]
    unfold sample
    rw [r1, Option.bind_some, r2]
    rfl
  · rw [List.getElem?_eq_none (by omega), List.getElem?_eq_none (by rw [grayBytes_length]; omega)]

/-- The job of a strip of an image that is too narrow. -/
theorem gray_job_narrow {s : Scan} {c : Component} {row : List (List Int)} (hcomps : s.comps = [c])
    (v1 : c.verticalSample = 1) (h1 : c.horizontalSample = 1) (hin : s.inCs = .grayscale)
    (hout : s.outCs = .grayscale) (hrow : row.length = (s.width + 7) / 8)
    (hst : c.widthStride = 8 * row.length) (hw0 : 0 < s.width)
    (hw' : 9 * s.width ≤ 64 * row.length) (hchunk : s.chunk = 8 * s.width) :
    grayJob s row = .panic .index := by
  have hpos : 0 < row.length := by omega
  have hshape : StripShape (codedRow row) 1 row.length (1 * 1) 1 :=
    ⟨hpos, by decide, by rw [codedRow_length]; omega, by rw [codedRow_length]; omega⟩
  obtain ⟨plane, p1, p2, -⟩ := c29_layout s.idct (qt := c.quantTable) hshape
  have o1 := (c37_gray_partial (f := s.color) (c0 := c) (cs := [])
    (inCs := .grayscale) (Or.inr rfl) (w := s.width) (pw := 8 * row.length) (rows := 8) (y := plane)
    (ps := []) (out := List.replicate s.chunk 0) (by omega) hw0 (by decide) (by omega)
    (by rw [List.length_replicate, hchunk])).2 (by omega)
  unfold grayJob postProcess
  rw [hcomps, hin, hout]
  dsimp only [List.getElem?_cons_zero]
  have hi : idctComponent s.idct [c] [codedRow row, [], []] c.horizontalSample c.verticalSample 0 =
      .ok plane := by
    unfold idctComponent
    dsimp only [List.getElem?_cons_zero]
    rw [h1, v1, hst, if_pos rfl]
    exact p1
  show (Out.collect [idctComponent s.idct [c] [codedRow row, [], []] c.horizontalSample
    c.verticalSample 0]).bind _ = _
  rw [hi]
  exact o1

/-- Rows of a fixed length. -/
theorem exists_rows {α : Type} {w : Nat} : ∀ (h : Nat) (l : List α), l.length = h * w →
    ∃ rows : List (List α), rows.flatten = l ∧ rows.length = h ∧ ∀ r ∈ rows, r.length = w
  | 0, l, hl => ⟨[], by rw [Nat.zero_mul, List.length_eq_zero_iff] at hl; simp [hl], rfl, by simp⟩
  | h + 1, l, hl => by
    rw [Nat.add_one_mul] at hl
    obtain ⟨rows, e1, e2, e3⟩ := exists_rows (w := w) h (l.drop w) (by rw [List.length_drop]; omega)
    refine ⟨l.take w :: rows, by rw [List.flatten_cons, e1, List.take_append_drop], by simp [e2], ?_⟩
    intro r hr
    rcases List.mem_cons.1 hr with rfl | hr
    · rw [List.length_take]; omega
    · exact e3 r hr

/-- The strips, cut off at the height of the image. -/
theorem gray_assemble (f : IdctFn) (qt : List Nat) {w h n : Nat} (hw : 0 < w)
    {rows : List (List (List Int))} (hr : ∀ r ∈ rows, r.length = (w + 7) / 8)
    (hh : h ≤ 8 * rows.length) (hn : h * w ≤ n) :
    assemble n (h * w) (rows.map fun row => grayBytes f qt w 8 row) =
      grayBytes f qt w h rows.flatten := by
  have hl : ∀ l ∈ rows.map (fun row => grayBytes f qt w 8 row), l.length = 8 * w := by
    intro l hl
    obtain ⟨b, -, rfl⟩ := List.mem_map.1 hl
    exact grayBytes_length ..
  have hlen : (rows.map fun row => grayBytes f qt w 8 row).flatten.length = rows.length * (8 * w) := by
    rw [length_flatten_const hl, List.length_map]
  have hle : h * w ≤ rows.length * (8 * w) := by
    rw [← Nat.mul_assoc, Nat.mul_comm rows.length]
    exact Nat.mul_le_mul_right _ hh
  unfold assemble fit
  rw [List.take_take, Nat.min_eq_left hn]
  apply List.ext_getElem?
  intro p
  by_cases hp : p < h * w
  · rw [List.getElem?_take_of_lt hp, List.getElem?_append_left (by omega)]
    have hx : p % (8 * w) < 8 * w := Nat.mod_lt _ (by omega)
    have e1 := getElem?_flatten_const hl (i := p / (8 * w)) hx
    rw [Nat.div_add_mod'] at e1
    rw [e1, grayBytes, List.getElem?_map, List.getElem?_map, List.getElem?_range hp]
    have hi : p / (8 * w) < rows.length := Nat.div_lt_of_lt_mul (by rw [Nat.mul_comm]; omega)
    rw [List.getElem?_eq_getElem hi]
    simp only [Option.map_some, Option.bind_some]
    rw [grayBytes, List.getElem?_map, List.getElem?_range hx]
    simp only [Option.map_some]
    congr 2
    have d1 : p % (8 * w) % w = p % w := Nat.mod_mod_of_dvd _ ⟨8, Nat.mul_comm _ _⟩
    have d2 : p % (8 * w) / w = p / w % 8 := by
      rw [Nat.mul_comm 8 w, Nat.mod_mul_right_div_self]
    have d3 : p / (8 * w) = p / w / 8 := by
      rw [Nat.mul_comm 8 w, Nat.div_div_eq_div_mul]
    unfold planeSample
    rw [d1, d2]
    have hlt : p / w % 8 < 8 := Nat.mod_lt _ (by decide)
    rw [Nat.div_eq_of_lt hlt, Nat.zero_mul, Nat.zero_add, Nat.mod_eq_of_lt hlt]
    have hxw : p % w / 8 < (w + 7) / 8 := by
      have := Nat.mod_lt p hw
      omega
    have e2 := getElem?_flatten_const hr (i := p / w / 8) hxw
    rw [List.getD_eq_getElem?_getD, List.getD_eq_getElem?_getD, e2]
    rw [← d3, List.getElem?_eq_getElem hi, Option.bind_some]
  · rw [List.getElem?_eq_none (by rw [List.length_take]; omega),
      List.getElem?_eq_none (by rw [grayBytes_length]; omega)]

/-- The decoder after the headers of a grayscale image of `w` x `h` samples; `r` is the restart interval
of the image. Without one, the interval and the counter of the decoder may be anything. -/
structure GrayReady (d : Decoder) (c : Component) (dc ac : HuffmanTable) (w h r : Nat) : Prop where
  comps : d.components = [c]
  pred : c.dcPred = 0
  idY : c.componentId = .y
  dcTab : d.dcTables[c.dcHuffTable]? = some (some dc)
  acTab : d.acTables[c.acHuffTable]? = some (some ac)
  dcLt : c.dcHuffTable < 4
  acLt : c.acHuffTable < 4
  v1 : c.verticalSample = 1
  h1 : c.horizontalSample = 1
  inCs : d.inputColorspace = .grayscale
  outCs : d.options.getOutColorspace = .grayscale
  hMax : d.hMax = 1
  vMax : d.vMax = 1
  ratio : d.subSampleRatio = .none
  width : d.info.width.toNat = w
  height : d.info.height.toNat = h
  w0 : 0 < w
  h0 : 0 < h
  wLe : w ≤ 65527
  hLe : h ≤ 65527
  stride : c.widthStride = 8 * ((w + 7) / 8)
  todo : r ≠ 0 → d.restartInterval = r ∧ d.todo = r

theorem and3_of_lt {n : Nat} (h : n < 4) : n &&& 3 = n := by
  rw [show (3 : Nat) = 2 ^ 2 - 1 from rfl, Nat.and_two_pow_sub_one_eq_mod]
  omega

section
variable {d : Decoder} {c : Component} {dc ac : HuffmanTable} {w h r : Nat}

theorem GrayReady.frame (R : GrayReady d c dc ac w h r) : GrayFrame d c dc ac :=
  ⟨by rw [and3_of_lt R.dcLt]; exact R.dcTab, by rw [and3_of_lt R.acLt]; exact R.acTab, R.v1, R.h1,
    R.inCs, R.outCs⟩

theorem GrayReady.chunk (R : GrayReady d c dc ac w h r) : chunkLen d = 8 * w := by
  unfold chunkLen
  rw [R.outCs, R.hMax, R.vMax, R.width]
  show w * 1 * 8 * 1 * 1 = _
  omega

theorem GrayReady.outLen (R : GrayReady d c dc ac w h r) : (w + 8) * (h + 8) ≤ outBufferLen d := by
  unfold outBufferLen
  rw [R.outCs]
  have h1 : (d.info.width + 8).toNat = w + 8 := by
    rw [UInt16.toNat_add, R.width]
    show (w + 8) % 65536 = _
    have := R.wLe
    omega
  have h2 : (d.info.height + 8).toNat = h + 8 := by
    rw [UInt16.toNat_add, R.height]
    show (h + 8) % 65536 = _
    have := R.hLe
    omega
  rw [h1, h2]
  show _ ≤ (w + 8) * (h + 8) * 1 + _
  omega

/-- The preparations of the scan decoder. -/
theorem gray_setup (R : GrayReady d c dc ac w h r) (hi : d.interleaved = false) (rd : List UInt8) :
    baselineSetup ⟨d, rd⟩ = (.ok (mkScan ((w + 7) / 8, (h + 7) / 8, 1) d c), ⟨d, rd⟩) := by
  have g : getDec (⟨d, rd⟩ : H) = (.ok d, ⟨d, rd⟩) := rfl
  have h1 : d.checkComponentDimensions = .ok () := by
    unfold Decoder.checkComponentDimensions
    rw [R.comps, List.find?_cons_of_pos (by simpa using R.idY)]
    dsimp only
    rw [R.hMax, if_neg (by decide), checkDims, if_pos R.idY]
    rfl
  have h2 : d.checkTables = .ok () := by
    unfold Decoder.checkTables
    rw [R.inCs]
    show Out.fold (fun _ i => checkTable d i) () [0] = _
    have : checkTable d 0 = .ok () := by
      unfold checkTable
      rw [R.comps]
      dsimp only [List.getElem?_cons_zero]
      rw [R.dcTab]
      dsimp only
      rw [R.acTab]
    rw [Out.fold, this]
    rfl
  have e1 : M.ofOut d.checkComponentDimensions (⟨d, rd⟩ : H) = (.ok (), ⟨d, rd⟩) := by rw [h1]; rfl
  have e2 : M.ofOut d.checkTables (⟨d, rd⟩ : H) = (.ok (), ⟨d, rd⟩) := by rw [h2]; rfl
  have e3 : mcuCounts ⟨d, rd⟩ = (.ok ((w + 7) / 8, (h + 7) / 8, 1), ⟨d, rd⟩) := by
    unfold mcuCounts
    rw [M.bind_ok g, if_neg (by rw [hi]; decide), blocks8_eq (by rw [R.width]; exact R.wLe),
      blocks8_eq (by rw [R.height]; exact R.hLe), R.width, R.height]
    rfl
  have e4 : grayReset ((w + 7) / 8, (h + 7) / 8, 1) ⟨d, rd⟩ =
      (.ok ((w + 7) / 8, (h + 7) / 8, 1), ⟨d, rd⟩) := by
    unfold grayReset
    rw [M.bind_ok g, if_neg (by rw [hi]; simp)]
    rfl
  have e5 : M.idx d.components 0 (⟨d, rd⟩ : H) = (.ok c, ⟨d, rd⟩) := by
    rw [R.comps]; rfl
  unfold baselineSetup
  rw [M.bind_ok g, M.bind_ok e1, M.bind_ok e2, M.bind_ok e3, M.bind_ok e4, M.bind_ok g, M.bind_ok e5]
  rw [if_neg]
  · rfl
  · show chunkLen d ≠ 0
    rw [R.chunk]
    have := R.w0
    omega

theorem joinPool_collect {β : Type} (f : β → List UInt8) (l : List β) {jobs : List (Out (List UInt8))}
    (h : jobs = l.map fun b => .ok (f b)) : joinPool (.ok ()) jobs = .ok (l.map f) := by
  unfold joinPool
  have hu : jobs.any Out.isUnsound = false := by
    rw [h, List.any_map]
    simp [Out.isUnsound]
  rw [hu, h, Out.collect_map_ok (g := f) fun b _ => rfl]
  rfl

theorem joinPool_panic {jobs : List (Out (List UInt8))} (h : ∀ j ∈ jobs, j = .panic .index)
    (hne : jobs ≠ []) : joinPool (.ok ()) jobs = .panic .worker := by
  cases jobs with
  | nil => exact absurd rfl hne
  | cons j l =>
    have hj := h j (by simp)
    subst hj
    unfold joinPool
    have hu : (Out.panic Site.index :: l).any Out.isUnsound = false := by
      rw [List.any_eq_false]
      intro j hj
      rw [h j hj]
      exact (by decide : ¬ Out.isUnsound (.panic .index : Out (List UInt8)) = true)
    rw [hu]
    rfl

/-- A coded grayscale scan. -/
theorem gray_baseline (R : GrayReady d c dc ac w h r) {C : Codes} (ht : Tables C dc ac)
    {ivs : List (List (List Int))} (hiv : C.Intervals r ivs)
    (hcount : ivs.flatten.length = (h + 7) / 8 * ((w + 7) / 8)) (trailer : List UInt8) {d0 : Decoder}
    (hset : ∀ rd, baselineSetup ⟨d0, rd⟩ = (.ok (mkScan ((w + 7) / 8, (h + 7) / 8, 1) d c), ⟨d, rd⟩)) :
    ∃ q todo rd', decodeBaseline ⟨d0, scanBytes C.dcWord C.acWord 0 ivs ++ 0xFF :: 0xD9 :: trailer⟩ =
      (if 64 * ((w + 7) / 8) < 9 * w then .ok (grayBytes d.idctFn c.quantTable w h ivs.flatten)
        else .panic .worker, ⟨grayDec d c q todo, rd'⟩) := by
  have hw0 := R.w0
  have hh0 := R.h0
  obtain ⟨rows, r1, r2, r3⟩ := exists_rows _ _ hcount
  obtain ⟨s, hs⟩ : ∃ s, mkScan ((w + 7) / 8, (h + 7) / 8, 1) d c = s := ⟨_, rfl⟩
  have hchunk : s.chunk = 8 * w := by rw [← hs]; exact R.chunk
  have hout : (w + 8) * (h + 8) ≤ s.outLen := by rw [← hs]; exact R.outLen
  have hwidth : s.width = w := by rw [← hs]; exact R.width
  have hmw : s.mcuWidth = (w + 7) / 8 := by rw [← hs]; rfl
  have hmh : s.mcuHeight = (h + 7) / 8 := by rw [← hs]; rfl
  have hb : s.bias = 1 := by rw [← hs]; rfl
  have hhv : s.isHv = false := by
    rw [← hs]
    show decide (d.subSampleRatio = .hv) = false
    rw [R.ratio]
    rfl
  have hcomps : s.comps = [c] := by rw [← hs]; exact R.comps
  have hin : s.inCs = .grayscale := by rw [← hs]; exact R.inCs
  have houtCs : s.outCs = .grayscale := by rw [← hs]; exact R.outCs
  have hidct : s.idct = d.idctFn := by rw [← hs]; rfl
  -- the start of the scan
  obtain ⟨iv, rest, rfl⟩ : ∃ iv rest, ivs = iv :: rest := by
    cases ivs with
    | nil => exact absurd hiv id
    | cons iv rest => exact ⟨_, _, rfl⟩
  let t0 : T := { dec := d, io := { bs := BitStream.new
                                    rd := scanBytes C.dcWord C.acWord 0 (iv :: rest) ++
                                      0xFF :: 0xD9 :: trailer } }
  have hd0 : d = grayDec d c 0 d.todo := by
    have : ({ c with dcPred := 0 } : Component) = c := by rw [← R.pred]
    unfold grayDec
    rw [this, ← R.comps]
  have hrem : GrayRem d c C trailer rows.flatten t0 := by
    refine ⟨⟨_, _, hd0⟩, fun _ => ⟨0, iv, rest, 0, d.todo, _, (intervals_head hiv).1, by rw [r1]; simp,
      grayAt_start hiv hd0 (fun hne => ?_) rfl rfl rfl⟩⟩
    have hr0 : r ≠ 0 := by
      cases rest with
      | nil => exact absurd rfl hne
      | cons iv' ivs =>
        obtain ⟨g1, g2, g3, -⟩ := hiv
        have : iv.length ≠ 0 := by simpa using g1
        omega
    exact ⟨(R.todo hr0).2, (R.todo hr0).1⟩
  have hroom : rows.length ≤ s.outLen / s.chunk := by
    rw [hchunk, r2, Nat.le_div_iff_mul_le (by omega)]
    have : (h + 7) / 8 * (8 * w) ≤ (h + 8) * w := by
      rw [← Nat.mul_assoc]
      exact Nat.mul_le_mul_right _ (by omega)
    have h2 : (w + 8) * (h + 8) = (h + 8) * w + (h + 8) * 8 := by ring
    omega
  obtain ⟨t', e1, e2, q, todo, e3⟩ := gray_strips R.frame ht hhv hb rows t0
    (fun r hr => by rw [hmw]; exact r3 r hr) (by show 0 + _ ≤ _; omega) hrem
  refine ⟨q, todo, t'.io.rd, ?_⟩
  unfold decodeBaseline
  rw [hset]
  dsimp only
  rw [hs, hmh, ← r2]
  show ((joinPool (strips s rows.length t0).1 (strips s rows.length t0).2.jobs).map
    (assemble s.outLen (keepLen (strips s rows.length t0).2.dec)),
    (⟨(strips s rows.length t0).2.dec, (strips s rows.length t0).2.io.rd⟩ : H)) = _
  rw [e1]
  dsimp only
  by_cases hwide : 64 * ((w + 7) / 8) < 9 * w
  case neg =>
    rw [if_neg hwide, joinPool_panic]
    · rw [e3]; rfl
    · intro j hj
      rw [e2] at hj
      obtain ⟨row, hrow, rfl⟩ := List.mem_map.1 (show j ∈ rows.map (grayJob s) from hj)
      have hl := r3 row hrow
      exact gray_job_narrow hcomps R.v1 R.h1 hin houtCs (by rw [hwidth]; exact hl)
        (by rw [R.stride, hl]) (by rw [hwidth]; exact hw0) (by rw [hwidth, hl]; omega)
        (by rw [hchunk, hwidth])
    · rw [e2]
      have : rows ≠ [] := by
        rintro rfl
        simp at r2
        omega
      simpa using fun _ => this
  rw [if_pos hwide]
  have hj : t'.jobs = rows.map fun row => .ok (grayBytes d.idctFn c.quantTable w 8 row) := by
    rw [e2]
    show [] ++ _ = _
    rw [List.nil_append]
    apply List.map_congr_left
    intro row hrow
    have hl := r3 row hrow
    rw [gray_job hcomps R.v1 R.h1 hin houtCs (by rw [hwidth]; exact hl) (by rw [R.stride, hl])
      (by rw [hwidth]; exact hw0) (by rw [hwidth, hl]; exact hwide) (by rw [hchunk, hwidth]), hidct,
      hwidth]
  rw [joinPool_collect _ rows hj]
  have hk : keepLen t'.dec = h * w := by
    rw [e3]
    show d.info.width.toNat * d.info.height.toNat * d.options.getOutColorspace.numComponents = _
    rw [R.outCs, R.width, R.height]
    show w * h * 1 = _
    ring
  rw [hk, e3]
  show (Out.ok (assemble _ _ _), _) = _
  have h2 : (w + 8) * (h + 8) = h * w + (h + w + 8) * 8 := by ring
  rw [gray_assemble _ _ hw0 r3 (by omega) (by omega), r1]

/-- The state of a decoder, new or used, after the headers of a baseline grayscale image. -/
structure GrayHead (d : Decoder) (c : Component) (dc ac : HuffmanTable) (w h r : Nat) : Prop where
  comps : d.components = [c]
  pred : c.dcPred = 0
  idY : c.componentId = .y
  dcTab : d.dcTables[c.dcHuffTable]? = some (some dc)
  acTab : d.acTables[c.acHuffTable]? = some (some ac)
  dcLt : c.dcHuffTable < 4
  acLt : c.acHuffTable < 4
  v1 : c.verticalSample = 1
  h1 : c.horizontalSample = 1
  inCs : d.inputColorspace = .grayscale
  outCs : d.options.getOutColorspace = .grayscale
  width : d.info.width.toNat = w
  height : d.info.height.toNat = h
  w0 : 0 < w
  h0 : 0 < h
  wLe : w ≤ 65527
  hLe : h ≤ 65527
  todo : r ≠ 0 → d.restartInterval = r ∧ d.todo = r
  hMax : 0 < d.hMax ∧ d.hMax ≤ 2
  vMax : 0 < d.vMax ∧ d.vMax ≤ 2
  plain : d.interleaved = false → d.hMax = 1 ∧ d.vMax = 1 ∧ d.subSampleRatio = .none ∧
    c.widthStride = 8 * ((w + 7) / 8)
  strict : d.interleaved = true → d.options.getStrictMode = false

/-- The component that a used decoder decodes. -/
def resetComp (w : Nat) (c : Component) : Component :=
  { c with verticalSample := 1, widthStride := (w + 7) / 8 * 8, horizontalSample := 1 }

/-- A used decoder after the preparations. -/
def resetDec (d : Decoder) (w : Nat) (c : Component) : Decoder :=
  { d with hMax := 1, vMax := 1, options := d.options.setOutColorspace .grayscale
           subSampleRatio := .none, components := [resetComp w c] }

theorem GrayHead.ready (R : GrayHead d c dc ac w h r) : ∃ d', ∃ c',
    (d' = d ∧ c' = c ∧ d.interleaved = false ∨ d' = resetDec d w c ∧ c' = resetComp w c) ∧
    GrayReady d' c' dc ac w h r ∧
    ∀ rd, baselineSetup ⟨d, rd⟩ = (.ok (mkScan ((w + 7) / 8, (h + 7) / 8, 1) d' c'), ⟨d', rd⟩) := by
  cases hi : d.interleaved
  · obtain ⟨p1, p2, p3, p4⟩ := R.plain hi
    have R' : GrayReady d c dc ac w h r :=
      { comps := R.comps, pred := R.pred, idY := R.idY, dcTab := R.dcTab, acTab := R.acTab, dcLt := R.dcLt
        acLt := R.acLt, v1 := R.v1, h1 := R.h1, inCs := R.inCs, outCs := R.outCs, hMax := p1, vMax := p2
        ratio := p3, width := R.width, height := R.height, w0 := R.w0, h0 := R.h0, wLe := R.wLe
        hLe := R.hLe, stride := p4, todo := R.todo }
    exact ⟨d, c, Or.inl ⟨rfl, rfl, rfl⟩, R', gray_setup R' hi⟩
  · have R' : GrayReady (resetDec d w c) (resetComp w c) dc ac w h r :=
      { comps := rfl, pred := R.pred, idY := R.idY, dcTab := R.dcTab, acTab := R.acTab, dcLt := R.dcLt
        acLt := R.acLt, v1 := rfl, h1 := rfl, inCs := R.inCs, outCs := rfl, hMax := rfl, vMax := rfl
        ratio := rfl, width := R.width, height := R.height, w0 := R.w0, h0 := R.h0, wLe := R.wLe
        hLe := R.hLe, stride := Nat.mul_comm _ _, todo := R.todo }
    refine ⟨_, _, Or.inr ⟨rfl, rfl⟩, R', fun rd => ?_⟩
    have g : ∀ x : H, getDec x = (.ok x.dec, x) := fun _ => rfl
    have hm := R.hMax
    have vm := R.vMax
    have k1 : d.checkComponentDimensions = .ok () := by
      unfold Decoder.checkComponentDimensions
      rw [R.comps, List.find?_cons_of_pos (by simpa using R.idY)]
      dsimp only
      rw [if_neg (by omega), checkDims, if_pos R.idY]
      rfl
    have k2 : d.checkTables = .ok () := by
      unfold Decoder.checkTables
      rw [R.inCs]
      show Out.fold (fun _ i => checkTable d i) () [0] = _
      have : checkTable d 0 = .ok () := by
        unfold checkTable
        rw [R.comps]
        dsimp only [List.getElem?_cons_zero]
        rw [R.dcTab]
        dsimp only
        rw [R.acTab]
      rw [Out.fold, this]
      rfl
    have e1 : M.ofOut d.checkComponentDimensions (⟨d, rd⟩ : H) = (.ok (), ⟨d, rd⟩) := by rw [k1]; rfl
    have e2 : M.ofOut d.checkTables (⟨d, rd⟩ : H) = (.ok (), ⟨d, rd⟩) := by rw [k2]; rfl
    have e3 : ∃ m x, mcuCounts ⟨d, rd⟩ = (.ok m, ⟨{ d with subSampleRatio := x }, rd⟩) := by
      have hup : ∃ x, Decoder.setUpsampling d = (.ok (), { d with subSampleRatio := x }) := by
        have hc : (d.hMax = 1 ∧ d.vMax = 1) ∨ (d.hMax = 2 ∧ d.vMax = 1) ∨ (d.hMax = 1 ∧ d.vMax = 2) ∨
          (d.hMax = 2 ∧ d.vMax = 2) := by omega
        unfold Decoder.setUpsampling
        rcases hc with ⟨a, b⟩ | ⟨a, b⟩ | ⟨a, b⟩ | ⟨a, b⟩
        · refine ⟨d.subSampleRatio, ?_⟩
          rw [if_pos (by rw [a, b]; decide)]
        · refine ⟨.h, ?_⟩
          rw [if_neg (by rw [a, b]; decide), if_pos (by rw [a, b]; decide), R.comps]
          show (Out.ok (), { d with subSampleRatio := .h, components := [c] }) = _
          rw [← R.comps]
        · refine ⟨.v, ?_⟩
          rw [if_neg (by rw [a, b]; decide), if_neg (by rw [a, b]; decide), if_pos (by rw [a, b]; decide), R.comps]
          show (Out.ok (), { d with subSampleRatio := .v, components := [c] }) = _
          rw [← R.comps]
        · refine ⟨.hv, ?_⟩
          rw [if_neg (by rw [a, b]; decide), if_neg (by rw [a, b]; decide), if_neg (by rw [a, b]; decide),
            if_pos (by rw [a, b]; decide), R.comps]
          show (Out.ok (), { d with subSampleRatio := .hv, components := [c] }) = _
          rw [← R.comps]
      obtain ⟨x, hx⟩ := hup
      have hl : liftDec Decoder.setUpsampling (⟨d, rd⟩ : H) = (.ok (), ⟨{ d with subSampleRatio := x }, rd⟩) := by
        unfold liftDec
        rw [hx]
      unfold mcuCounts
      rw [M.bind_ok (g _), if_pos hi, M.bind_ok hl, M.bind_ok (g _)]
      split
      · exact ⟨_, x, rfl⟩
      · split
        · exact ⟨_, x, rfl⟩
        · exact ⟨_, x, rfl⟩
    obtain ⟨m, x, e3⟩ := e3
    have e4 : grayReset m ⟨{ d with subSampleRatio := x }, rd⟩ =
        (.ok ((w + 7) / 8, (h + 7) / 8, 1), ⟨resetDec d w c, rd⟩) := by
      have b1 : blocks8 d.info.width = (w + 7) / 8 := by
        rw [blocks8_eq (by rw [R.width]; exact R.wLe), R.width]
      have b2 : blocks8 d.info.height = (h + 7) / 8 := by
        rw [blocks8_eq (by rw [R.height]; exact R.hLe), R.height]
      unfold grayReset
      rw [M.bind_ok (g _), if_pos ⟨R.inCs, hi⟩, if_neg (by
        show ¬ d.options.getStrictMode = true
        rw [R.strict hi]; decide)]
      dsimp only
      rw [R.comps, if_neg (show ¬ [c].length = 0 from Nat.succ_ne_zero 0), b1, b2]
      rfl
    have e5 : M.idx (resetDec d w c).components 0 (⟨resetDec d w c, rd⟩ : H) =
      (.ok (resetComp w c), ⟨resetDec d w c, rd⟩) := rfl
    unfold baselineSetup
    rw [M.bind_ok (g _), M.bind_ok e1, M.bind_ok e2, M.bind_ok e3, M.bind_ok e4, M.bind_ok (g _), M.bind_ok e5]
    rw [if_neg]
    · rfl
    · show chunkLen (resetDec d w c) ≠ 0
      rw [R'.chunk]
      have := R.w0
      omega

end

end Zune
