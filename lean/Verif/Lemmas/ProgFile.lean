import Verif.Lemmas.ProgScan
import Verif.Props.Gray
/-! Progressive files with one component. -/

namespace Zune
open Spec

/-- The decoder after the frame header, whatever tables and scans it has seen since. -/
structure ProgReady (d : Decoder) (c : Component) (w h : Nat) : Prop where
  comps : d.components = [c]
  idY : c.componentId = .y
  cid : c.id = 1
  icomp : d.info.components = 1
  v1 : c.verticalSample = 1
  h1 : c.horizontalSample = 1
  inCs : d.inputColorspace = .grayscale
  outCs : d.options.getOutColorspace = .grayscale
  hMax : d.hMax = 1
  vMax : d.vMax = 1
  inter : d.interleaved = false
  ratio : d.subSampleRatio = .none
  prog : d.isProgressive = true
  width : d.info.width.toNat = w
  height : d.info.height.toNat = h
  w0 : 0 < w
  h0 : 0 < h
  wLe : w ≤ 65527
  hLe : h ≤ 65527
  stride : c.widthStride = 8 * ((w + 7) / 8)
  zlen : 0 < d.zOrder.length

section
variable {d : Decoder} {c : Component} {w h : Nat}

theorem ProgReady.gray (R : ProgReady d c w h) (q : I32) (k : Nat) :
    ProgReady (grayDec d c q k) { c with dcPred := q } w h :=
  { comps := rfl, idY := R.idY, cid := R.cid, icomp := R.icomp, v1 := R.v1, h1 := R.h1, inCs := R.inCs
    outCs := R.outCs, hMax := R.hMax, vMax := R.vMax, inter := R.inter, ratio := R.ratio, prog := R.prog
    width := R.width, height := R.height, w0 := R.w0, h0 := R.h0, wLe := R.wLe, hLe := R.hLe
    stride := R.stride, zlen := R.zlen }

theorem ProgReady.table (R : ProgReady d c w h) (isDc : Bool) (k : Nat) (t : HuffmanTable) :
    ProgReady (setTable d isDc k t) c w h := by
  cases isDc
  all_goals exact
    { comps := R.comps, idY := R.idY, cid := R.cid, icomp := R.icomp, v1 := R.v1, h1 := R.h1
      inCs := R.inCs, outCs := R.outCs, hMax := R.hMax, vMax := R.vMax, inter := R.inter
      ratio := R.ratio, prog := R.prog, width := R.width, height := R.height, w0 := R.w0, h0 := R.h0
      wLe := R.wLe, hLe := R.hLe, stride := R.stride, zlen := R.zlen }

theorem ProgReady.chunk (R : ProgReady d c w h) : chunkLen d = 8 * w := by
  unfold chunkLen
  rw [R.outCs, R.hMax, R.vMax, R.width]
  show w * 1 * 8 * 1 * 1 = _
  omega

theorem ProgReady.outLen (R : ProgReady d c w h) : outBufferLen d = (w + 8) * (h + 8) := by
  unfold outBufferLen
  rw [R.outCs, R.inter]
  have h1 : (d.info.width + 8).toNat = w + 8 := by
    rw [UInt16.toNat_add, R.width]
    show (w + 8) % 65536 = _
    have := R.wLe
    omega
  have h2 : (d.info.height + 8).toNat = h + 8 := by
    rw [UInt16.toNat_add, R.height]
    show (h + 8) % 65536 = _
    have := R.hLe
    omega
  rw [h1, h2]
  show (w + 8) * (h + 8) * 1 + 0 * 128 * d.info.height.toNat * 1 = _
  simp

theorem ProgReady.dims (R : ProgReady d c w h) : d.checkComponentDimensions = .ok () := by
  unfold Decoder.checkComponentDimensions
  rw [R.comps, List.find?_cons_of_pos (by simpa using R.idY)]
  dsimp only
  rw [R.hMax, if_neg (by decide), checkDims, if_pos R.idY]
  rfl

/-! ### One scan -/

/-- Before the first block. -/
theorem parseEntropy_eq (R : ProgReady d c w h) (hn : d.numScans = 1) (hz : d.zOrder[0]? = some 0)
    (hsp : d.specStart = 0 → d.specEnd = 0) {t : T} (hd : t.dec = d) (bufs : List (List I16)) :
    parseEntropy bufs t = progLoop 0 ((w + 7) / 8) ((h + 7) / 8)
      (((w + 7) / 8 + 1) * ((h + 7) / 8) + 1) 0 0 bufs
      { t with io := { t.io with bs := t.io.bs.reset }, dec := grayDec d c 0 d.todo } := by
  subst hd
  have e1 : M.ofOut t.dec.checkComponentDimensions t = (.ok (), t) := by rw [R.dims]; rfl
  have e2 : M.modify (fun t : T => { t with
      io := { t.io with bs := t.io.bs.reset }
      dec := { t.dec with components := t.dec.components.map fun c => { c with dcPred := 0 } } }) t =
      (.ok (), { t with
        io := { t.io with bs := t.io.bs.reset }, dec := grayDec t.dec c 0 t.dec.todo }) := by
    unfold M.modify grayDec
    dsimp only
    rw [R.comps]
    rfl
  unfold parseEntropy
  rw [M.bind_ok (M.get_apply _), M.bind_ok e1, M.bind_ok e2, M.bind_ok (M.get_apply _)]
  obtain ⟨t1, ht1⟩ : ∃ t1 : T, { t with
    io := { t.io with bs := t.io.bs.reset }, dec := grayDec t.dec c 0 t.dec.todo } = t1 := ⟨_, rfl⟩
  rw [ht1]
  dsimp only
  have a1 : t1.dec.numScans = 1 := by rw [← ht1]; exact hn
  have a2 : t1.dec.inputColorspace.numComponents = 1 := by
    rw [← ht1]
    show t.dec.inputColorspace.numComponents = 1
    rw [R.inCs]
    rfl
  have a3 : ¬ (t1.dec.specEnd ≠ 0 ∧ t1.dec.specStart = 0) := by
    rw [← ht1]
    show ¬ (t.dec.specEnd ≠ 0 ∧ t.dec.specStart = 0)
    exact fun h => h.1 (hsp h.2)
  have a4 : M.idx t1.dec.zOrder 0 t1 = (.ok 0, t1) := by
    unfold M.idx
    have : t1.dec.zOrder[0]? = some 0 := by rw [← ht1]; exact hz
    rw [this]
  have a5 : t1.dec.components = [{ c with dcPred := 0 }] := by rw [← ht1]; rfl
  have a6 : M.idx t1.dec.components 0 t1 = (.ok { c with dcPred := 0 }, t1) := by rw [a5]; rfl
  have b1 : blocks8 t1.dec.info.width = (w + 7) / 8 := by
    rw [← ht1]
    show blocks8 t.dec.info.width = _
    rw [blocks8_eq (by rw [R.width]; exact R.wLe), R.width]
  have b2 : blocks8 t1.dec.info.height = (h + 7) / 8 := by
    rw [← ht1]
    show blocks8 t.dec.info.height = _
    rw [blocks8_eq (by rw [R.height]; exact R.hLe), R.height]
  rw [if_neg (by omega), if_pos a1, if_neg a3, M.bind_ok a4, if_neg (by rw [a5]; simp), M.bind_ok a6,
    if_pos (Or.inl R.idY), b1, b2]

/-- The reader at the start of a scan. -/
theorem rep_bits {bits : List Bool} {m : UInt8} {r : List UInt8} (h0 : m ≠ 0) (hf : m ≠ 0xFF)
    (hk : (Marker.fromU8 m).isSome) (bs : BitStream) (hb : bs.bitsLeft = 0) (hm : bs.marker = none) :
    Rep { bs := bs, rd := stuffBytes (packBytes (padBits bits)) ++ 0xFF :: m :: r }
      (bits ++ List.replicate (padCount bits.length) true) (some (m, r)) := by
  have hs := scan_stuff (packBytes (padBits bits)) m r h0 hf
  have e1 : scanData (stuffBytes (packBytes (padBits bits)) ++ 0xFF :: m :: r) =
      packBytes (padBits bits) := by rw [scanData, hs]
  have e2 : scanEnd (stuffBytes (packBytes (padBits bits)) ++ 0xFF :: m :: r) = some (m, r) := by
    rw [scanEnd, hs]
  have := rep_new (stuffBytes (packBytes (padBits bits)) ++ 0xFF :: m :: r) bs hb hm (by
    rw [e2]
    rintro m' r' h
    cases h
    exact hk)
  rw [e1, e2, bytesBits_packBytes _ (padBits_length _)] at this
  exact this

/-- The table in a slot is the one that the file describes. -/
def Slot (o : Option HTable) (isDc : Bool) (slot : Option (Option HuffmanTable)) : Prop :=
  ∀ h, o = some h → ∃ counts values t, slot = some (some t) ∧ Accepted counts values isDc true t ∧
    codeBook counts values = h.book

/-- One scan of one component of a progressive image, after the setup. -/
theorem scan_core {D : I32 → Nat → Decoder} {k S L mw mh : Nat} (SD : ScanDec D d k c)
    (hst : c.widthStride / 8 = S) (hSw : mw ≤ S) (hL : mh * S ≤ L)
    {dc ac : Option HTable} {lev : Nat → Option Nat} {blocks : List (List Int)} {word : Nat → List Bool}
    {bits : List Bool}
    (hdata : ScanData dc ac lev blocks word d.specStart d.specEnd d.succHigh d.succLow bits)
    (hdc : Slot dc true d.dcTables[c.dcHuffTable]?) (hac : Slot ac false d.acTables[c.acHuffTable]?)
    (hdl : c.dcHuffTable < 4) (hal : d.succLow < 15)
    (hblk : ∀ b ∈ blocks, BlockOk b) (hcount : blocks.length = mh * mw)
    {reserve : Nat} (hr : 1 ≤ reserve) {m : UInt8} {r : List UInt8} {t0 : T}
    (hrep : Rep t0.io (bits ++ List.replicate (padCount bits.length) true) (some (m, r)))
    (hat : ∀ R', R'.length ≤ blocks.length → At D d reserve (BitVec.ofInt 32 0) R' t0)
    (heob : t0.io.bs.eobRun = 0)
    {bufs : List (List I16)} {buf : List I16} (hbk : bufs[k]? = some buf) (hlen : buf.length = 64 * L)
    (hh : Holds (gridPos mw S) lev blocks buf) :
    ∃ t' q todo buf', progLoop k mw mh ((mw + 1) * mh + 1) 0 0 bufs t0 = (.ok (bufs.set k buf'), t') ∧
      buf'.length = 64 * L ∧
      Holds (gridPos mw S) (setLevel lev d.specStart d.specEnd d.succLow) blocks buf' ∧
      t'.dec = D q todo ∧ reserve ≤ todo ∧
      Rep t'.io (List.replicate (padCount bits.length) true) (some (m, r)) ∧
      (d.specStart = 0 → d.succHigh = 0 → ∀ x ∈ (dcDiffs d.succLow 0 blocks).getLast?,
        t'.io.bs.marker = none → 16 ≤ t'.io.bs.bitsLeft + (dcCode word x).length) := by
  have hdl3 : c.dcHuffTable &&& 3 = c.dcHuffTable := and3_of_lt hdl
  obtain ⟨ss, hss⟩ : ∃ x, d.specStart = x := ⟨_, rfl⟩
  obtain ⟨se, hse⟩ : ∃ x, d.specEnd = x := ⟨_, rfl⟩
  obtain ⟨ah, hah⟩ : ∃ x, d.succHigh = x := ⟨_, rfl⟩
  obtain ⟨al, hal'⟩ : ∃ x, d.succLow = x := ⟨_, rfl⟩
  rw [hss, hse, hah, hal'] at hdata
  rw [hss, hse, hah, hal']
  rw [hal'] at hal
  have fin : ∀ {State : List (List Int) → T → Prop},
      (∀ R t, State R t → ∃ q, At D d reserve q R t) →
      (∀ i j b R t, (∃ done, blocks = done ++ b :: R) → State (b :: R) t →
        Visit k mw lev (setLevel lev ss se al) State i j (b :: R) t) →
      State blocks t0 →
      (∀ t', State [] t' → Rep t'.io (List.replicate (padCount bits.length) true) (some (m, r)) ∧
        (ss = 0 → ah = 0 → ∀ x ∈ (dcDiffs al 0 blocks).getLast?,
          t'.io.bs.marker = none → 16 ≤ t'.io.bs.bitsLeft + (dcCode word x).length)) →
      ∃ t' q todo buf', progLoop k mw mh ((mw + 1) * mh + 1) 0 0 bufs t0 = (.ok (bufs.set k buf'), t') ∧
        buf'.length = 64 * L ∧ Holds (gridPos mw S) (setLevel lev ss se al) blocks buf' ∧
        t'.dec = D q todo ∧ reserve ≤ todo ∧
        Rep t'.io (List.replicate (padCount bits.length) true) (some (m, r)) ∧
        (ss = 0 → ah = 0 → ∀ x ∈ (dcDiffs al 0 blocks).getLast?,
          t'.io.bs.marker = none → 16 ≤ t'.io.bs.bitsLeft + (dcCode word x).length) := by
    intro State hAt hvisit hstart hend
    obtain ⟨t', buf', e1, e2, e5, e6⟩ := progLoop_scan SD hst hSw hL hcount
      (fun R t hs => by
        obtain ⟨q, ha⟩ := hAt R t hs
        obtain ⟨todo, e, -⟩ := ha.dec
        exact ⟨q, todo, e⟩) hvisit hbk hlen hh hstart _ (Nat.le_refl _)
    obtain ⟨q, ha⟩ := hAt _ _ e2
    obtain ⟨todo, e3, e4⟩ := ha.dec
    exact ⟨t', q, todo, buf', e1, e5, e6, e3, by simpa using e4, hend t' e2⟩
  cases hdata with
  | dcFirst htab hcode =>
    obtain ⟨counts, values, tab, g1, g2, g3⟩ := hdc _ htab
    refine fin (State := DcFirstAt D d reserve al word
        (List.replicate (padCount (dcFirstBits word (dcDiffs al 0 blocks)).length) true) (some (m, r)) blocks)
      (fun R t hs => ?_)
      (dcFirst_visit SD hr hss hah hal' (by rw [hdl3]; exact g1) g2 hblk (by rw [g3]; exact hcode))
      ⟨0, [], hat _ (Nat.le_refl _), hrep, rfl, by simp⟩ ?_
    · obtain ⟨p, -, ha, -⟩ := hs
      exact ⟨_, ha⟩
    · rintro t' ⟨p, pre, ha, hrep', hpre, hlate⟩
      refine ⟨hrep', fun _ _ => ?_⟩
      rw [hpre, dcDiffs, List.append_nil]
      exact hlate
  | dcRefine htab hlev =>
    obtain ⟨counts, values, tab, g1, g2, g3⟩ := hdc _ htab
    refine fin (State := DcRefineAt D d reserve al
        (List.replicate (padCount (dcRefineBits al blocks).length) true) (some (m, r)))
      (fun R t hs => ?_)
      (dcRefine_visit SD hr hss (by omega) hal' (by rw [hdl3]; exact g1) hlev hblk)
      ⟨_, hat _ (Nat.le_refl _), hrep⟩ ?_
    · obtain ⟨p, ha, -⟩ := hs
      exact ⟨_, ha⟩
    · rintro t' ⟨p, ha, hrep'⟩
      exact ⟨hrep', fun _ hx => by omega⟩
  | @acFirst _ _ _ tab toks htab h1 hle hlt hlev htoks hcode =>
    obtain ⟨counts, values, tab, g1, g2, g3⟩ := hac _ htab
    refine fin (State := AcFirstAt D d reserve ss se al counts values word
        (List.replicate (padCount (symbolBits word toks).length) true) (some (m, r)))
      (fun R t hs => ?_)
      (acFirst_visit SD hr hss hse hah hal' h1 hle hlt hlev g1 g2 hblk)
      ⟨_, [], blocks, toks, rfl, hat _ (Nat.le_refl _), heob, by simp, htoks,
        fun p hp => by unfold Coded; rw [g3]; exact hcode p hp, hrep⟩ ?_
    · obtain ⟨q, Z, R', tk, -, ha, -⟩ := hs
      exact ⟨_, ha⟩
    · rintro t' ⟨q, Z, R', tk, hR, ha, -, -, htk, -, hrep'⟩
      obtain ⟨-, rfl⟩ := List.append_eq_nil_iff.1 hR.symm
      cases htk
      exact ⟨hrep', fun hx => by omega⟩
  | @acRefine _ _ _ tab toks htab h1 hle hlt hlev htoks hcode =>
    obtain ⟨counts, values, tab, g1, g2, g3⟩ := hac _ htab
    refine fin (State := AcRefineAt D d reserve ss se al counts values word
        (List.replicate (padCount (symbolBits word toks).length) true) (some (m, r)))
      (fun R t hs => ?_)
      (acRefine_visit SD hr hss hse (by omega) hal' h1 hle hlt hal hlev g1 g2 hblk)
      ⟨_, [], blocks, toks, rfl, hat _ (Nat.le_refl _), heob, by simp, htoks,
        fun p hp => by rw [g3]; exact hcode p hp, hrep⟩ ?_
    · obtain ⟨q, Z, R', tk, -, ha, -⟩ := hs
      exact ⟨_, ha⟩
    · rintro t' ⟨q, Z, R', tk, hR, ha, -, -, htk, -, hrep'⟩
      obtain ⟨rfl, rfl⟩ := List.append_eq_nil_iff.1 hR.symm
      cases htk
      exact ⟨hrep', fun hx => by omega⟩

theorem grayDec_scan (d : Decoder) (c : Component) : ScanDec (grayDec d c) d 0 c where
  comp _ _ := rfl
  pred _ _ _ := rfl
  todo _ _ := rfl
  count _ _ _ := rfl
  dcs _ _ := rfl
  acs _ _ := rfl
  start _ _ := rfl
  high _ _ := rfl

/-- One scan of an image with one component. -/
theorem scan_decodes (R : ProgReady d c w h) (hn : d.numScans = 1) (hz : d.zOrder[0]? = some 0)
    {dc ac : Option HTable} {lev : Nat → Option Nat} {blocks : List (List Int)} {word : Nat → List Bool}
    {bits : List Bool}
    (hdata : ScanData dc ac lev blocks word d.specStart d.specEnd d.succHigh d.succLow bits)
    (hdc : Slot dc true d.dcTables[c.dcHuffTable]?) (hac : Slot ac false d.acTables[c.acHuffTable]?)
    (hdl : c.dcHuffTable < 4) (hal : d.succLow < 15)
    (hblk : ∀ b ∈ blocks, BlockOk b) (hcount : blocks.length = (h + 7) / 8 * ((w + 7) / 8))
    {reserve : Nat} (hr : 1 ≤ reserve) (htodo : blocks.length + reserve ≤ d.todo)
    {m : UInt8} {r : List UInt8} (m0 : m ≠ 0) (mf : m ≠ 0xFF) (mk : (Marker.fromU8 m).isSome)
    {t : T} (hd : t.dec = d) (hlow : t.io.bs.succLow = d.succLow)
    (hstart : t.io.bs.specStart = d.specStart) (hstop : t.io.bs.specEnd = d.specEnd)
    (hrd : t.io.rd = stuffBytes (packBytes (padBits bits)) ++ 0xFF :: m :: r) :
    ∃ t' q todo, parseEntropy [bufOf lev blocks, [], []] t =
        (.ok [bufOf (setLevel lev d.specStart d.specEnd d.succLow) blocks, [], []], t') ∧
      t'.dec = grayDec d c q todo ∧ reserve ≤ todo ∧
      Rep t'.io (List.replicate (padCount bits.length) true) (some (m, r)) ∧
      (d.specStart = 0 → d.succHigh = 0 → ∀ x ∈ (dcDiffs d.succLow 0 blocks).getLast?,
        t'.io.bs.marker = none → 16 ≤ t'.io.bs.bitsLeft + (dcCode word x).length) := by
  have hstride : c.widthStride / 8 = (w + 7) / 8 := by rw [R.stride]; omega
  have hsp : d.specStart = 0 → d.specEnd = 0 := by
    revert hdata
    generalize d.specStart = ss
    generalize d.specEnd = se
    generalize d.succHigh = ah
    generalize d.succLow = al
    intro hdata hs
    cases hdata <;> omega
  obtain ⟨t0, ht0⟩ : ∃ t0 : T, { t with
    io := { t.io with bs := t.io.bs.reset }, dec := grayDec d c 0 d.todo } = t0 := ⟨_, rfl⟩
  have heq := parseEntropy_eq R hn hz hsp hd [bufOf lev blocks, [], []]
  rw [ht0] at heq
  have hrep : Rep t0.io (bits ++ List.replicate (padCount bits.length) true) (some (m, r)) := by
    rw [← ht0]
    show Rep ⟨t.io.bs.reset, t.io.rd⟩ _ _
    rw [hrd]
    exact rep_bits m0 mf mk _ rfl rfl
  have hat : ∀ R', R'.length ≤ blocks.length → At (grayDec d c) d reserve (BitVec.ofInt 32 0) R' t0 := by
    intro R' hR'
    rw [← ht0]
    exact ⟨⟨d.todo, rfl, by omega⟩, hlow, hstart, hstop⟩
  have heob : t0.io.bs.eobRun = 0 := by rw [← ht0]; rfl
  rw [heq]
  obtain ⟨t', q, todo, buf', g1, g2, g3, g4, g5, g6, g7⟩ := scan_core (grayDec_scan d c) hstride
    (Nat.le_refl _) (Nat.le_refl _) hdata hdc hac hdl hal hblk hcount hr hrep hat heob
    (bufs := [bufOf lev blocks, [], []]) rfl (by rw [bufOf_length, hcount, Nat.mul_comm])
    (by rw [show gridPos ((w + 7) / 8) ((w + 7) / 8) = fun n => n from funext fun n => gridPos_self _ n]
        exact bufOf_holds _ _)
  rw [show gridPos ((w + 7) / 8) ((w + 7) / 8) = fun n => n from funext fun n => gridPos_self _ n] at g3
  refine ⟨t', q, todo, ?_, g4, g5, g6, g7⟩
  rw [g1, holds_bufOf (by rw [g2, hcount]) g3]
  rfl

end

/-! ### Files -/

/-- A table definition: class, destination and table. -/
structure Spec.Dht where
  isDc : Bool
  dest : Nat
  table : HTable

/-- The segment that defines a table. -/
def Spec.Dht.segment (t : Dht) : Segment :=
  ⟨0xC4, UInt8.ofNat ((if t.isDc then 0 else 16) + t.dest) :: (t.table.counts ++ t.table.symbols)⟩

/-- The table is a Huffman code and fits into a segment. -/
structure Spec.Dht.Valid (t : Dht) : Prop where
  dest : t.dest < 4
  len : t.table.counts.length = 16
  sum : (t.table.counts.map (·.toNat)).sum = t.table.symbols.length
  max : t.table.symbols.length ≤ 256
  code : CodeExists (t.table.counts.map (·.toNat))
  small : t.isDc = true → ∀ v ∈ t.table.symbols, v.toNat ≤ 15

/-- The tables in force. -/
abbrev Spec.Tabs := Bool → Nat → Option HTable

/-- The tables after a definition. -/
def Spec.Tabs.define (tabs : Tabs) (t : Dht) : Tabs :=
  fun b k => if b = t.isDc ∧ k = t.dest then some t.table else tabs b k

/-- A scan with the tables defined before it: parameters, destinations of its tables, code words and
data. -/
structure Spec.ProgScan where
  tables : List Dht
  dcDest : Nat
  acDest : Nat
  ss : Nat
  se : Nat
  ah : Nat
  al : Nat
  word : Nat → List Bool
  bits : List Bool

/-- The bytes of the scan header after the marker. -/
def Spec.ProgScan.header (s : ProgScan) : List UInt8 :=
  [0, 8, 1, 1, UInt8.ofNat (16 * s.dcDest + s.acDest), UInt8.ofNat s.ss, UInt8.ofNat s.se,
    UInt8.ofNat (16 * s.ah + s.al)]

/-- The bytes of a scan and of the tables before it. -/
def Spec.ProgScan.bytes (s : ProgScan) : List UInt8 :=
  (s.tables.map Dht.segment).flatMap Segment.bytes ++ 0xFF :: 0xDA :: (s.header ++
    stuffBytes (packBytes (padBits s.bits)))

/-- A scan that can be decoded. -/
structure Spec.ProgScan.Valid (s : ProgScan) (tabs : Tabs) (lev : Nat → Option Nat)
    (blocks : List (List Int)) : Prop where
  tables : ∀ t ∈ s.tables, t.Valid
  dcDest : s.dcDest < 4
  acDest : s.acDest < 4
  ah : s.ah ≤ 13
  al : s.al ≤ 13
  data : ScanData (s.tables.foldl Tabs.define tabs true s.dcDest)
    (s.tables.foldl Tabs.define tabs false s.acDest) lev blocks s.word s.ss s.se s.ah s.al s.bits

/-- The scans lead from `lev` to `lev'`. -/
def Spec.Script (blocks : List (List Int)) : Tabs → (Nat → Option Nat) → List ProgScan →
    (Nat → Option Nat) → Prop
  | _, lev, [], lev' => lev' = lev
  | tabs, lev, s :: rest, lev' => s.Valid tabs lev blocks ∧
      Script blocks (s.tables.foldl Tabs.define tabs) (setLevel lev s.ss s.se s.al) rest lev'

/-! ### The decoder between two scans -/

/-- What holds between two scans. -/
def ProgInv (w h : Nat) (qt : List Nat) (f : IdctFn) (o : Options) (tabs : Tabs) (budget : Nat)
    (d : Decoder) : Prop :=
  ∃ c, ProgReady d c w h ∧ c.quantTable = qt ∧ d.idctFn = f ∧ d.options = o ∧ budget ≤ d.todo ∧
    d.dcTables.length = 4 ∧ d.acTables.length = 4 ∧
    ∀ k, k < 4 → Slot (tabs true k) true d.dcTables[k]? ∧ Slot (tabs false k) false d.acTables[k]?

/-- A table definition. -/
theorem slots_set {tabs : Tabs} {d : Decoder} {t : Dht} (V : t.Valid) {tab : HuffmanTable}
    {counts values : List Nat} (ht : Accepted counts values t.isDc true tab)
    (eb : codeBook counts values = t.table.book)
    (h5 : d.dcTables.length = 4) (h6 : d.acTables.length = 4)
    (h7 : ∀ k, k < 4 → Slot (tabs true k) true d.dcTables[k]? ∧ Slot (tabs false k) false d.acTables[k]?) :
    (setTable d t.isDc t.dest tab).dcTables.length = 4 ∧ (setTable d t.isDc t.dest tab).acTables.length = 4 ∧
    ∀ k, k < 4 → Slot (tabs.define t true k) true (setTable d t.isDc t.dest tab).dcTables[k]? ∧
      Slot (tabs.define t false k) false (setTable d t.isDc t.dest tab).acTables[k]? := by
  refine ⟨?_, ?_, fun k hk => ?_⟩
  · unfold setTable; split <;> simp [h5]
  · unfold setTable; split <;> simp [h6]
  · obtain ⟨g1, g2⟩ := h7 k hk
    rcases hdc : t.isDc with _ | _
    · refine ⟨?_, ?_⟩
      · unfold Tabs.define setTable
        rw [hdc, if_neg (by simp)]
        exact g1
      · unfold Tabs.define setTable
        rw [hdc]
        by_cases hkd : k = t.dest
        · rw [if_pos ⟨rfl, hkd⟩]
          intro x hx
          cases hx
          rw [hdc] at ht
          exact ⟨_, _, tab, by
            show (d.acTables.set t.dest (some tab))[k]? = _
            rw [hkd, List.getElem?_set_self (by rw [h6]; exact V.dest)], ht, eb⟩
        · rw [if_neg (fun hc => hkd hc.2)]
          show Slot _ _ (d.acTables.set t.dest (some tab))[k]?
          rw [List.getElem?_set_ne (fun hc => hkd hc.symm)]
          exact g2
    · refine ⟨?_, ?_⟩
      · unfold Tabs.define setTable
        rw [hdc]
        by_cases hkd : k = t.dest
        · rw [if_pos ⟨rfl, hkd⟩]
          intro x hx
          cases hx
          rw [hdc] at ht
          exact ⟨_, _, tab, by
            show (d.dcTables.set t.dest (some tab))[k]? = _
            rw [hkd, List.getElem?_set_self (by rw [h5]; exact V.dest)], ht, eb⟩
        · rw [if_neg (fun hc => hkd hc.2)]
          show Slot _ _ (d.dcTables.set t.dest (some tab))[k]?
          rw [List.getElem?_set_ne (fun hc => hkd hc.symm)]
          exact g1
      · unfold Tabs.define setTable
        rw [hdc, if_neg (by simp)]
        exact g2

section
variable {w h : Nat} {qt : List Nat} {f : IdctFn} {o : Options} {tabs : Tabs} {budget : Nat}

theorem ProgInv.define {d : Decoder} (hi : ProgInv w h qt f o tabs budget d) {t : Dht} (V : t.Valid) :
    ∃ d', SegOk t.segment.marker t.segment.payload d d' ∧
      ProgInv w h qt f o (tabs.define t) budget d' := by
  obtain ⟨c, R, h1, h2, h3, h4, h5, h6, h7⟩ := hi
  obtain ⟨tab, ht, eb⟩ := table_of t.isDc true V.len V.sum V.max V.code V.small
  refine ⟨setTable d t.isDc t.dest tab, dht_one d t.isDc V.dest V.len V.sum V.max
    (by rw [R.prog]; exact ht.table), c, R.table _ _ _, h1, ?_, ?_, ?_, slots_set V ht eb h5 h6 h7⟩
  · rw [← h2]; unfold setTable; split <;> rfl
  · rw [← h3]; unfold setTable; split <;> rfl
  · refine Nat.le_trans h4 (Nat.le_of_eq ?_); unfold setTable; split <;> rfl

theorem ProgInv.defines : ∀ {ts : List Dht} {tabs : Tabs} {d : Decoder},
    ProgInv w h qt f o tabs budget d → (∀ t ∈ ts, t.Valid) →
    ∃ d', SegsOk (ts.map Dht.segment) d d' ∧ ProgInv w h qt f o (ts.foldl Tabs.define tabs) budget d'
  | [], _, d, hi, _ => ⟨d, rfl, hi⟩
  | t :: ts, _, d, hi, hv => by
    obtain ⟨d1, e1, h1⟩ := hi.define (hv t List.mem_cons_self)
    obtain ⟨d2, e2, h2⟩ := ProgInv.defines h1 fun t ht => hv t (List.mem_cons_of_mem _ ht)
    exact ⟨d2, ⟨d1, e1, e2⟩, h2⟩

theorem Spec.Dht.Valid.header {t : Dht} (V : t.Valid) : t.segment.Header := by
  have h1 := V.len
  have h2 := V.max
  exact ⟨by simp [Dht.segment]; omega, (by decide : (0xC4 : UInt8) ≠ 0xFF),
    (by decide : (0xC4 : UInt8) ≠ 0xDA)⟩

/-- The decoder after a scan header. -/
theorem ProgInv.sos {d : Decoder} (hi : ProgInv w h qt f o tabs budget d) {s : ProgScan}
    (ha : s.dcDest < 4) (hb : s.acDest < 4) (hss : s.ss < 64) (hse : s.se < 64) (hah : s.ah ≤ 13)
    (hal : s.al ≤ 13) (rest : List UInt8) :
    ∃ d', parseSos ⟨d, s.header ++ rest⟩ = (.ok (), ⟨d', rest⟩) ∧
      ProgInv w h qt f o tabs budget d' ∧ d'.specStart = s.ss ∧ d'.specEnd = s.se ∧ d'.succHigh = s.ah ∧
      d'.succLow = s.al ∧ d'.numScans = 1 ∧ d'.zOrder[0]? = some 0 ∧
      ∀ c, d'.components = [c] → c.dcHuffTable = s.dcDest ∧ c.acHuffTable = s.acDest := by
  obtain ⟨c, R, h1, h2, h3, h4, h5, h6, h7⟩ := hi
  refine ⟨_, sos_scan d R.comps R.cid R.icomp ha hb hss hse hah hal rest,
    ⟨{ c with dcHuffTable := s.dcDest, acHuffTable := s.acDest }, ?_, h1, h2, h3, h4, h5, h6, h7⟩, rfl,
    rfl, rfl, rfl, rfl, ?_, ?_⟩
  · exact
      { comps := rfl, idY := R.idY, cid := R.cid, icomp := R.icomp, v1 := R.v1, h1 := R.h1
        inCs := R.inCs, outCs := R.outCs, hMax := R.hMax, vMax := R.vMax, inter := R.inter
        ratio := R.ratio, prog := R.prog, width := R.width, height := R.height, w0 := R.w0, h0 := R.h0
        wLe := R.wLe, hLe := R.hLe, stride := R.stride
        zlen := by show 0 < (d.zOrder.set 0 0).length; rw [List.length_set]; exact R.zlen }
  · show (d.zOrder.set 0 0)[0]? = _
    rw [List.getElem?_set_self R.zlen]
  · intro c' hc'
    have : [({ c with dcHuffTable := s.dcDest, acHuffTable := s.acDest } : Component)] = [c'] := hc'
    cases this
    exact ⟨rfl, rfl⟩

theorem scanData_bounds {dc ac : Option HTable} {lev : Nat → Option Nat} {blocks : List (List Int)}
    {word : Nat → List Bool} {ss se ah al : Nat} {bits : List Bool}
    (hd : ScanData dc ac lev blocks word ss se ah al bits) : ss < 64 ∧ se < 64 := by
  cases hd <;> omega

/-- One scan, from its data on. -/
theorem ProgInv.scan {d : Decoder} {blocks : List (List Int)}
    (hi : ProgInv w h qt f o tabs (blocks.length + budget) d) (hb : 1 ≤ budget)
    {s : ProgScan} {lev : Nat → Option Nat}
    (hdata : ScanData (tabs true s.dcDest) (tabs false s.acDest) lev blocks s.word s.ss s.se s.ah s.al
      s.bits)
    (hdd : s.dcDest < 4) (had : s.acDest < 4) (hal : s.al ≤ 13)
    (e1 : d.specStart = s.ss) (e2 : d.specEnd = s.se) (e3 : d.succHigh = s.ah) (e4 : d.succLow = s.al)
    (e5 : d.numScans = 1) (e6 : d.zOrder[0]? = some 0)
    (e7 : ∀ c, d.components = [c] → c.dcHuffTable = s.dcDest ∧ c.acHuffTable = s.acDest)
    (hblk : ∀ b ∈ blocks, BlockOk b) (hcount : blocks.length = (h + 7) / 8 * ((w + 7) / 8))
    {m : UInt8} {r : List UInt8} (m0 : m ≠ 0) (mf : m ≠ 0xFF) (mk : (Marker.fromU8 m).isSome)
    {t : T} (hd : t.dec = d) (hlow : t.io.bs.succLow = d.succLow)
    (hstart : t.io.bs.specStart = d.specStart) (hstop : t.io.bs.specEnd = d.specEnd)
    (hrd : t.io.rd = stuffBytes (packBytes (padBits s.bits)) ++ 0xFF :: m :: r) :
    ∃ t', parseEntropy [bufOf lev blocks, [], []] t =
        (.ok [bufOf (setLevel lev s.ss s.se s.al) blocks, [], []], t') ∧
      ProgInv w h qt f o tabs budget t'.dec ∧
      Rep t'.io (List.replicate (padCount s.bits.length) true) (some (m, r)) ∧
      (s.ss = 0 → s.ah = 0 → ∀ x ∈ (dcDiffs s.al 0 blocks).getLast?,
        t'.io.bs.marker = none → 16 ≤ t'.io.bs.bitsLeft + (dcCode s.word x).length) := by
  obtain ⟨c, R, h1, h2, h3, h4, h5, h6, h7⟩ := hi
  obtain ⟨g1, g2⟩ := e7 c R.comps
  rw [← e1, ← e2, ← e3, ← e4] at hdata ⊢
  obtain ⟨t', q, todo, a1, a2, a3, a4, a5⟩ := scan_decodes R e5 e6 hdata
    (by rw [g1]; exact (h7 _ hdd).1) (by rw [g2]; exact (h7 _ had).2) (by rw [g1]; exact hdd)
    (by rw [e4]; omega) hblk hcount hb h4 m0 mf mk hd hlow hstart hstop hrd
  refine ⟨t', a1, ?_, a4, a5⟩
  rw [a2]
  exact ⟨_, R.gray q todo, h1, h2, h3, a3, h5, h6, h7⟩

/-! ### The loop over the markers -/

theorem scanMarker_scan : ∀ (l : List UInt8) (ff : Bool) {m : UInt8} {r : List UInt8},
    (scan ff l).2 = some (m, r) → scanMarker ff l = (Marker.fromU8 m, r)
  | [], ff, m, r, h => by cases ff <;> cases h
  | b :: l, false, m, r, h => by
    rw [scanMarker]
    rw [Spec.scan] at h
    by_cases hb : b = 0xFF
    · rw [if_pos hb] at h
      rw [hb]
      exact scanMarker_scan l true h
    · rw [if_neg hb] at h
      have : (b == 0xFF) = false := by simpa using hb
      rw [this]
      exact scanMarker_scan l false h
  | b :: l, true, m, r, h => by
    rw [scanMarker]
    rw [Spec.scan] at h
    by_cases hb : b = 0xFF
    · rw [if_pos hb] at h ⊢
      exact scanMarker_scan l true h
    · rw [if_neg hb] at h ⊢
      by_cases h0 : b = 0
      · rw [if_pos h0] at h ⊢
        exact scanMarker_scan l false h
      · rw [if_neg h0] at h ⊢
        cases h
        rfl

/-- The marker after a scan. -/
theorem getMarker_scan {t : T} {bits : List Bool} {m : UInt8} {r : List UInt8} {mk : Marker}
    (h : Rep t.io bits (some (m, r))) (hk : Marker.fromU8 m = some mk) :
    ∃ t', getMarker t = (.ok mk, t') ∧ t'.dec = t.dec ∧ t'.io.rd = r ∧ t'.io.bs.marker = none := by
  unfold getMarker
  rcases hm : t.io.bs.marker with _ | mk'
  · dsimp only
    have ha := h.atEnd
    rw [B.atEnd, hm] at ha
    rw [scanMarker_scan t.io.rd false ha.1, hk]
    exact ⟨_, rfl, rfl, rfl, hm⟩
  · obtain ⟨h1, h2⟩ := marker_only h hm
    rw [hk] at h1
    cases h1
    exact ⟨_, rfl, rfl, h2, rfl⟩

/-- The marker after a segment. -/
theorem getMarker_next {t : T} {m : UInt8} {r : List UInt8} {mk : Marker} (hn : t.io.bs.marker = none)
    (hr : t.io.rd = 0xFF :: m :: r) (h0 : m ≠ 0) (hf : m ≠ 0xFF) (hk : Marker.fromU8 m = some mk) :
    getMarker t = (.ok mk, { t with io := { t.io with rd := r } }) := by
  unfold getMarker
  rw [hn]
  dsimp only
  rw [hr, scanMarker_scan (0xFF :: m :: r) false (m := m) (r := r) (by simp [Spec.scan, h0, hf]), hk]

theorem scanLoop_dht (fuel seen : Nat) (bufs : List (List I16)) :
    scanLoop (fuel + 1) seen .dht bufs = (do
      liftH parseHuffman
      let m ← getMarker
      scanLoop fuel seen m bufs) := rfl

theorem scanLoop_sos (fuel seen : Nat) (bufs : List (List I16)) :
    scanLoop (fuel + 1) seen .sos bufs = (do
      liftH parseSos
      M.modify fun t =>
        let bs := t.io.bs.updateProgressiveParams t.dec.succHigh t.dec.succLow t.dec.specStart
          t.dec.specEnd
        { t with io := { t.io with bs := bs } }
      let bufs ← parseEntropy bufs
      let m ← getMarker
      let t ← M.get
      if seen + 1 > t.dec.options.getMaxScans then M.throw .format
      else
        M.modify fun t => { t with io := { t.io with bs := t.io.bs.reset } }
        scanLoop fuel (seen + 1) m bufs) := rfl

/-- The table definitions before a scan. -/
theorem scanLoop_tables {bufs : List (List I16)} {seen : Nat} {m' : UInt8} {r' : List UInt8}
    {mk' : Marker} (h0' : m' ≠ 0) (hf' : m' ≠ 0xFF) (hk' : Marker.fromU8 m' = some mk') :
    ∀ (ts : List Dht) (t : T) (d' : Decoder) (m : UInt8) (r : List UInt8) (mk : Marker) (fuel : Nat),
      (∀ t ∈ ts, t.Valid) → SegsOk (ts.map Dht.segment) t.dec d' →
      (ts.map Dht.segment).flatMap Segment.bytes ++ 0xFF :: m' :: r' = 0xFF :: m :: r →
      Marker.fromU8 m = some mk → t.io.rd = r → t.io.bs.marker = none →
      scanLoop (fuel + ts.length) seen mk bufs t =
        scanLoop fuel seen mk' bufs { t with dec := d', io := { t.io with rd := r' } }
  | [], t, d', m, r, mk, fuel, hv, hs, hb, hk, hr, hn => by
    obtain ⟨dec, io, jobs⟩ := t
    have hs : d' = dec := hs
    simp only [List.map_nil, List.flatMap_nil, List.nil_append] at hb
    injection hb with _ hb
    injection hb with hm hrr
    subst hm hrr hs
    rw [hk'] at hk
    cases hk
    dsimp only at hr ⊢
    rw [← hr]
    rfl
  | x :: ts, t, d', m, r, mk, fuel, hv, hs, hb, hk, hr, hn => by
    obtain ⟨d1, hs1, hs2⟩ := hs
    have V := hv x List.mem_cons_self
    rw [List.map_cons, List.flatMap_cons, List.append_assoc, Segment.bytes, List.cons_append,
      List.cons_append] at hb
    injection hb with _ hb
    injection hb with hm hrr
    have hm : m = 0xC4 := hm.symm
    subst hm
    have hmk : mk = .dht := by
      have : Marker.fromU8 0xC4 = some .dht := by decide
      rw [this] at hk
      cases hk
      rfl
    subst hmk
    obtain ⟨rest, hrest⟩ : ∃ rest, (ts.map Dht.segment).flatMap Segment.bytes ++ 0xFF :: m' :: r' = rest :=
      ⟨_, rfl⟩
    obtain ⟨m2, r2, mk2, h2, hk2, h02, hf2⟩ : ∃ m2 r2 mk2, rest = 0xFF :: m2 :: r2 ∧
        Marker.fromU8 m2 = some mk2 ∧ m2 ≠ 0 ∧ m2 ≠ 0xFF := by
      rw [← hrest]
      cases ts with
      | nil => exact ⟨m', r', mk', rfl, hk', h0', hf'⟩
      | cons y ts => exact ⟨0xC4, _, .dht, rfl, by decide, by decide, by decide⟩
    rw [hrest] at hrr
    have hp : parseHuffman ⟨t.dec, r⟩ = (.ok (), ⟨d1, rest⟩) := by
      have hs1' : parseHuffman ⟨t.dec, lenBytes x.segment.payload.length ++ x.segment.payload⟩ =
        (.ok (), ⟨d1, []⟩) := hs1
      obtain ⟨a, ea, hl⟩ := loc_parseHuffman _ _ _ _ _ hs1'
      rw [List.append_nil] at ea
      rw [← hrr, ea]
      exact hl rest
    rw [List.length_cons, ← Nat.add_assoc, scanLoop_dht]
    have hl : liftH parseHuffman t = (.ok (), { t with dec := d1, io := { t.io with rd := rest } }) := by
      unfold liftH
      rw [hr, hp]
    rw [M.bind_ok hl]
    have hg := getMarker_next (t := { t with dec := d1, io := { t.io with rd := rest } }) hn h2 h02 hf2 hk2
    rw [M.bind_ok hg]
    exact scanLoop_tables h0' hf' hk' ts
      { t with dec := d1, io := { t.io with rd := r2 } } d' m2 r2 mk2 fuel
      (fun t ht => hv t (List.mem_cons_of_mem _ ht)) hs2 (by rw [hrest, h2]) hk2 rfl hn

/-- What follows a scan: further scans and the end of the image. -/
def Spec.scansBytes (after : List UInt8) (scans : List ProgScan) : List UInt8 :=
  scans.flatMap ProgScan.bytes ++ after

/-- What ends the scans for the decoder: a marker that it knows, but for those of a table and of a scan. -/
def Spec.Stops (after : List UInt8) : Prop :=
  ∃ m r mk, after = 0xFF :: m :: r ∧ Marker.fromU8 m = some mk ∧ mk ≠ .dht ∧ mk ≠ .sos

theorem stops_eoi (r : List UInt8) : Stops (0xFF :: 0xD9 :: r) :=
  ⟨0xD9, r, .eoi, rfl, by decide, by decide, by decide⟩

theorem scansBytes_head {after : List UInt8} (ha : Stops after) (scans : List ProgScan) :
    ∃ m r mk, scansBytes after scans = 0xFF :: m :: r ∧ Marker.fromU8 m = some mk ∧ m ≠ 0 ∧
      m ≠ 0xFF := by
  cases scans with
  | nil =>
    obtain ⟨m, r, mk, e, hk, -, -⟩ := ha
    refine ⟨m, r, mk, e, hk, ?_, ?_⟩
    · rintro rfl
      revert hk
      simp [show Marker.fromU8 0 = none by decide]
    · rintro rfl
      revert hk
      simp [show Marker.fromU8 255 = none by decide]
  | cons s rest =>
    rcases ht : s.tables with _ | ⟨x, ts⟩
    · rw [scansBytes, List.flatMap_cons, ProgScan.bytes, ht]
      exact ⟨0xDA, _, .sos, rfl, by decide, by decide, by decide⟩
    · rw [scansBytes, List.flatMap_cons, ProgScan.bytes, ht]
      exact ⟨0xC4, _, .dht, rfl, by decide, by decide, by decide⟩

/-- Fuel for the scans. -/
def scansFuel (scans : List ProgScan) : Nat := (scans.map fun s => s.tables.length + 1).sum + 1

/-- Any other marker ends the scans. -/
theorem scanLoop_stop {mk : Marker} (hd : mk ≠ .dht) (hs : mk ≠ .sos) (fuel seen : Nat)
    (bufs : List (List I16)) (t : T) : scanLoop (fuel + 1) seen mk bufs t = (.ok bufs, t) := by
  cases mk <;> first | rfl | exact absurd rfl hd | exact absurd rfl hs

/-- The scans after the first one. -/
theorem scanLoop_script {blocks : List (List Int)} (hblk : ∀ b ∈ blocks, BlockOk b)
    (hcount : blocks.length = (h + 7) / 8 * ((w + 7) / 8)) {levEnd : Nat → Option Nat}
    {after : List UInt8} (ha : Stops after) :
    ∀ (scans : List ProgScan) (tabs : Tabs) (lev : Nat → Option Nat) (seen : Nat) (t : T) (m : UInt8)
      (r : List UInt8) (mk : Marker) (fuel : Nat), Script blocks tabs lev scans levEnd →
      ProgInv w h qt f o tabs (scans.length * blocks.length + 1) t.dec →
      scansBytes after scans = 0xFF :: m :: r → Marker.fromU8 m = some mk → t.io.rd = r →
      t.io.bs.marker = none → scansFuel scans ≤ fuel → seen + scans.length ≤ o.getMaxScans →
      ∃ t' tabs', scanLoop fuel seen mk [bufOf lev blocks, [], []] t =
          (.ok [bufOf levEnd blocks, [], []], t') ∧ ProgInv w h qt f o tabs' 1 t'.dec
  | [], tabs, lev, seen, t, m, r, mk, fuel, hs, hi, hb, hk, hr, hn, hf, hx => by
    have hs : levEnd = lev := hs
    subst hs
    obtain ⟨m', r', mk', e', hk', hd, hS⟩ := id ha
    have hb : after = 0xFF :: m :: r := hb
    rw [e'] at hb
    cases hb
    rw [hk'] at hk
    cases hk
    obtain ⟨fuel, rfl⟩ : ∃ n, fuel = n + 1 := ⟨fuel - 1, by
      have : scansFuel [] = 1 := rfl
      omega⟩
    refine ⟨t, tabs, scanLoop_stop hd hS _ _ _ _, ?_⟩
    simpa using hi
  | s :: rest, tabs, lev, seen, t, m, r, mk, fuel, hs, hi, hb, hk, hr, hn, hf, hx => by
    obtain ⟨V, hrest⟩ := hs
    obtain ⟨hss64, hse64⟩ := scanData_bounds V.data
    have hfu : scansFuel (s :: rest) = (scansFuel rest + 1) + s.tables.length := by
      unfold scansFuel
      rw [List.map_cons, List.sum_cons]
      omega
    obtain ⟨fuel, rfl⟩ : ∃ n, fuel = n + 1 + s.tables.length := ⟨fuel - 1 - s.tables.length, by omega⟩
    obtain ⟨d1, hsegs, hi1⟩ := hi.defines V.tables
    -- the table definitions
    obtain ⟨tail, htail⟩ : ∃ x, scansBytes after rest = x := ⟨_, rfl⟩
    have hb' : (s.tables.map Dht.segment).flatMap Segment.bytes ++ 0xFF :: 0xDA ::
        (s.header ++ (stuffBytes (packBytes (padBits s.bits)) ++ tail)) = 0xFF :: m :: r := by
      rw [← hb, ← htail]
      unfold scansBytes
      rw [List.flatMap_cons, ProgScan.bytes]
      simp
    rw [scanLoop_tables (by decide) (by decide) (show Marker.fromU8 0xDA = some .sos by decide) s.tables t
      d1 m r mk (fuel + 1) V.tables hsegs hb' hk hr hn]
    -- the scan header
    obtain ⟨d2, e1, hi2, p1, p2, p3, p4, p5, p6, p7⟩ := hi1.sos V.dcDest V.acDest hss64 hse64 V.ah V.al
      (stuffBytes (packBytes (padBits s.bits)) ++ tail)
    obtain ⟨t1, ht1⟩ : ∃ t1 : T, { t with
      dec := d1
      io := { t.io with rd := s.header ++ (stuffBytes (packBytes (padBits s.bits)) ++ tail) } } = t1 :=
      ⟨_, rfl⟩
    rw [ht1]
    have hl : liftH parseSos t1 = (.ok (), { t1 with
        dec := d2, io := { t1.io with rd := stuffBytes (packBytes (padBits s.bits)) ++ tail } }) := by
      unfold liftH
      rw [← ht1]
      dsimp only
      rw [e1]
    rw [scanLoop_sos, M.bind_ok hl]
    obtain ⟨t2, ht2⟩ : ∃ t2 : T, { t1 with
        dec := d2
        io := { bs := t1.io.bs.updateProgressiveParams d2.succHigh d2.succLow d2.specStart d2.specEnd
                rd := stuffBytes (packBytes (padBits s.bits)) ++ tail } } = t2 := ⟨_, rfl⟩
    have hmod : M.modify (fun t : T =>
        let bs := t.io.bs.updateProgressiveParams t.dec.succHigh t.dec.succLow t.dec.specStart
          t.dec.specEnd
        { t with io := { t.io with bs := bs } }) { t1 with
        dec := d2, io := { t1.io with rd := stuffBytes (packBytes (padBits s.bits)) ++ tail } } =
        (.ok (), t2) := by
      rw [← ht2]
      rfl
    rw [M.bind_ok hmod]
    -- the data
    obtain ⟨m2, r2, mk2, hhead, hk2, h02, hf2⟩ := scansBytes_head ha rest
    rw [htail] at hhead
    have hbud : (s :: rest).length * blocks.length + 1 = blocks.length + (rest.length * blocks.length + 1) := by
      rw [List.length_cons, Nat.add_one_mul]
      omega
    rw [hbud] at hi2
    obtain ⟨t3, e3, hi3, hrep, -⟩ := hi2.scan (by omega) V.data V.dcDest V.acDest V.al p1 p2 p3 p4 p5 p6 p7
      hblk hcount h02 hf2 (by rw [hk2]; rfl) (t := t2) (by rw [← ht2]) (by rw [← ht2]; rfl)
      (by rw [← ht2]; rfl) (by rw [← ht2]; rfl) (r := r2) (by rw [← ht2, ← hhead])
    obtain ⟨t4, e4, hd4, hr4, hn4⟩ := getMarker_scan hrep hk2
    rw [M.bind_ok e3, M.bind_ok e4, M.bind_ok (M.get_apply _)]
    have hopt : t4.dec.options = o := by
      rw [hd4]
      obtain ⟨c, -, -, -, h, -⟩ := hi3
      exact h
    rw [List.length_cons] at hx
    rw [hopt, if_neg (by omega)]
    have hmod2 : M.modify (fun t : T => { t with io := { t.io with bs := t.io.bs.reset } }) t4 =
        (.ok (), { t4 with io := { t4.io with bs := t4.io.bs.reset } }) := rfl
    rw [M.bind_ok hmod2]
    exact scanLoop_script hblk hcount ha rest _ _ (seen + 1) _ m2 r2 mk2 fuel hrest
      (by rw [hd4]; exact hi3) (by rw [htail]; exact hhead) hk2 hr4 rfl (by omega) (by omega)


theorem scansFuel_le {after : List UInt8} (ha : Stops after) (scans : List ProgScan) :
    scansFuel scans + 1 ≤ (scansBytes after scans).length := by
  have h0 : 2 ≤ after.length := by
    obtain ⟨m, r, mk, e, -⟩ := ha
    rw [e]
    simp
  have h1 : ∀ ts : List Dht, ts.length ≤ ((ts.map Dht.segment).flatMap Segment.bytes).length := by
    intro ts
    induction ts with
    | nil => simp
    | cons t ts ih =>
      rw [List.map_cons, List.flatMap_cons, List.length_append, Segment.bytes]
      simp only [List.length_cons]
      omega
  unfold scansBytes scansFuel
  induction scans with
  | nil => simpa using h0
  | cons s rest ih =>
    have := h1 s.tables
    rw [List.map_cons, List.sum_cons, List.flatMap_cons, ProgScan.bytes]
    simp only [List.length_append, List.length_cons] at ih ⊢
    omega

/-! ### The image -/

theorem chunksExact_flatten {α : Type} {n : Nat} (hn : 0 < n) {l : List (List α)}
    (hl : ∀ x ∈ l, x.length = n) : chunksExact n l.flatten = l := by
  have hlen : l.flatten.length = l.length * n := length_flatten_const hl
  refine List.ext_getElem? fun i => ?_
  by_cases hi : i < l.length
  · rw [getElem?_chunksExact (by rw [hlen, Nat.mul_div_cancel _ hn]; exact hi)]
    obtain ⟨a, b, hab, hai⟩ : ∃ a b, l = a ++ l[i] :: b ∧ a.length = i :=
      ⟨l.take i, l.drop (i + 1), by simp, by simp; omega⟩
    rw [List.getElem?_eq_getElem hi]
    congr 1
    obtain ⟨x, hx⟩ : ∃ x, l[i] = x := ⟨_, rfl⟩
    rw [hx] at hab ⊢
    have ha : a.flatten.length = i * n := by
      rw [length_flatten_const (n := n) (fun y hy => hl y (by rw [hab]; simp [hy])), hai]
    have hxl : x.length = n := hl x (by rw [hab]; simp)
    rw [hab, List.flatten_append, List.flatten_cons, ← ha, List.drop_left, List.take_left' hxl]
  · rw [List.getElem?_eq_none (by rw [length_chunksExact, hlen, Nat.mul_div_cancel _ hn]; omega),
      List.getElem?_eq_none (by omega)]

/-- Samples from coefficients. -/
theorem finish_gray {d : Decoder} (hi : ProgInv w h qt f o tabs budget d) {blocks : List (List Int)}
    (hcount : blocks.length = (h + 7) / 8 * ((w + 7) / 8)) (rd : List UInt8) :
    (finishProgressive [codedRow blocks, [], []] ((w + 7) / 8 * 64) ⟨d, rd⟩).1 =
      if 64 * ((w + 7) / 8) < 9 * w then .ok (grayBytes f qt w h blocks) else .panic .worker := by
  obtain ⟨c, R, hqt, hf, -⟩ := hi
  have hw0 := R.w0
  have hh0 := R.h0
  obtain ⟨rows, r1, r2, r3⟩ := exists_rows _ _ hcount
  obtain ⟨s, hs⟩ : ∃ s, mkScan ((w + 7) / 8, (h + 7) / 8, 1) d c = s := ⟨_, rfl⟩
  have hchunk : s.chunk = 8 * w := by rw [← hs]; exact R.chunk
  have hwidth : s.width = w := by rw [← hs]; exact R.width
  have hcomps : s.comps = [c] := by rw [← hs]; exact R.comps
  have hin : s.inCs = .grayscale := by rw [← hs]; exact R.inCs
  have houtCs : s.outCs = .grayscale := by rw [← hs]; exact R.outCs
  have hidct : s.idct = f := by rw [← hs]; exact hf
  have hup : liftDec Decoder.setUpsampling (⟨d, rd⟩ : H) = (.ok (), ⟨d, rd⟩) := by
    have : Decoder.setUpsampling d = (.ok (), d) := by
      unfold Decoder.setUpsampling
      rw [if_pos ⟨by rw [R.hMax, R.vMax], R.hMax⟩]
    unfold liftDec
    rw [this]
  have hsetup : finishSetup ((w + 7) / 8 * 64) ⟨d, rd⟩ = (.ok ((w + 7) / 8 * 64, 1), ⟨d, rd⟩) := by
    unfold finishSetup
    rw [M.bind_ok hup, M.bind_ok (getDec_apply _ _)]
    rw [if_neg (by rw [R.inter]; simp), R.ratio]
    rfl
  have hroom : rows.length ≤ outBufferLen d / chunkLen d := by
    rw [R.chunk, R.outLen, r2, Nat.le_div_iff_mul_le (by omega)]
    have : (h + 7) / 8 * (8 * w) ≤ (h + 8) * w := by
      rw [← Nat.mul_assoc]
      exact Nat.mul_le_mul_right _ (by omega)
    have h2 : (w + 8) * (h + 8) = (h + 8) * w + (h + 8) * 8 := by ring
    omega
  have hstrips : progStrips d ((w + 7) / 8 * 64) 1 [codedRow blocks, [], []] =
      .ok (rows.map fun row => [codedRow row, [], []]) := by
    unfold progStrips
    rw [R.comps]
    dsimp only [List.getElem?_cons_zero]
    rw [R.v1, R.h1, R.chunk, if_neg (by omega), R.inCs, if_neg (by decide)]
    have hrows : codedRow blocks = (rows.map codedRow).flatten := by
      rw [← r1]
      clear hroom r1 r2 r3
      induction rows with
      | nil => rfl
      | cons a l ih =>
        rw [List.flatten_cons, List.map_cons, List.flatten_cons, ← ih]
        simp [codedRow]
    rw [show ([codedRow blocks, [], []] : List (List I16)).getD 0 [] = (rows.map codedRow).flatten from hrows,
      chunksExact_flatten (by omega) (l := rows.map codedRow) (by
        intro x hx
        obtain ⟨row, hrow, rfl⟩ := List.mem_map.1 hx
        rw [codedRow_length, r3 row hrow]
        omega), ← R.chunk, List.take_of_length_le (by rw [List.length_map]; exact hroom), List.map_map]
    rfl
  unfold finishProgressive
  rw [M.bind_ok hsetup]
  dsimp only
  rw [M.bind_ok (getDec_apply _ _)]
  have hso : M.ofOut (progStrips d ((w + 7) / 8 * 64) 1 [codedRow blocks, [], []]) (⟨d, rd⟩ : H) =
      (.ok (rows.map fun row => [codedRow row, [], []]), ⟨d, rd⟩) := by rw [hstrips]; rfl
  rw [M.bind_ok hso]
  have hjobs : ((rows.map fun row => [codedRow row, ([] : List I16), []]).map fun s =>
      postProcess d.idctFn d.colorFn d.components d.inputColorspace d.options.getOutColorspace
        d.info.width.toNat s (List.replicate (chunkLen d) 0)) = rows.map (grayJob s) := by
    rw [List.map_map, ← hs]
    rfl
  rw [hjobs]
  by_cases hwide : 64 * ((w + 7) / 8) < 9 * w
  case neg =>
    rw [if_neg hwide]
    have : joinPool (.ok ()) (rows.map (grayJob s)) = .panic .worker := by
      rw [joinPool_panic]
      · intro j hj
        obtain ⟨row, hrow, rfl⟩ := List.mem_map.1 hj
        have hl := r3 row hrow
        exact gray_job_narrow hcomps R.v1 R.h1 hin houtCs (by rw [hwidth]; exact hl)
          (by rw [R.stride, hl]) (by rw [hwidth]; exact hw0) (by rw [hwidth, hl]; omega)
          (by rw [hchunk, hwidth])
      · have : rows ≠ [] := by
          rintro rfl
          simp at r2
          omega
        simpa using this
    rw [this]
    rfl
  rw [if_pos hwide]
  have hj : rows.map (grayJob s) = rows.map fun row => .ok (grayBytes f qt w 8 row) := by
    apply List.map_congr_left
    intro row hrow
    have hl := r3 row hrow
    rw [gray_job hcomps R.v1 R.h1 hin houtCs (by rw [hwidth]; exact hl) (by rw [R.stride, hl])
      (by rw [hwidth]; exact hw0) (by rw [hwidth, hl]; exact hwide) (by rw [hchunk, hwidth]), hidct,
      hwidth, hqt]
  rw [joinPool_collect _ rows hj]
  have hk : keepLen d = h * w := by
    show d.info.width.toNat * d.info.height.toNat * d.options.getOutColorspace.numComponents = _
    rw [R.outCs, R.width, R.height]
    show w * h * 1 = _
    ring
  show Out.ok (assemble (outBufferLen d) (keepLen d) _) = _
  rw [hk, R.outLen]
  rw [gray_assemble _ _ hw0 r3 (by omega), r1]
  have h2 : (w + 8) * (h + 8) = h * w + (h + w + 8) * 8 := by ring
  omega

/-! ### The first scan -/

theorem bufOf_none {blocks : List (List Int)} (hb : ∀ b ∈ blocks, BlockOk b) :
    List.replicate (blocks.length * 64) (0 : I16) = bufOf (fun _ => none) blocks := by
  have hz : coded (List.replicate 64 0) = List.replicate 64 0 := by decide +kernel
  have ha : ∀ b ∈ blocks, coded (approxBlock (fun _ => none) b) = List.replicate 64 0 := by
    intro b hm
    have : approxBlock (fun _ => none) b = List.replicate 64 0 := by
      refine List.ext_getElem? fun k => ?_
      unfold approxBlock
      rw [List.getElem?_mapIdx, List.getElem?_replicate]
      have := (hb b hm).len
      by_cases hk : k < 64
      · rw [if_pos hk, List.getElem?_eq_getElem (by omega)]
        rfl
      · rw [if_neg hk, List.getElem?_eq_none (by omega)]
        rfl
    rw [this, hz]
  clear hb
  induction blocks with
  | nil => rfl
  | cons b bs ih =>
    rw [bufOf_cons, ha b List.mem_cons_self, ← ih fun x hx => ha x (List.mem_cons_of_mem _ hx),
      List.length_cons, Nat.add_one_mul, Nat.add_comm, List.replicate_add]

/-- All scans of an image, from the data of the first one on. -/
theorem progScans_script {d : Decoder} {blocks : List (List Int)} (hblk : ∀ b ∈ blocks, BlockOk b)
    (hcount : blocks.length = (h + 7) / 8 * ((w + 7) / 8)) {levEnd lev : Nat → Option Nat}
    {after : List UInt8} (ha : Stops after) {s : ProgScan} {rest : List ProgScan}
    (hi : ProgInv w h qt f o tabs ((rest.length + 1) * blocks.length + 1) d)
    (hdata : ScanData (tabs true s.dcDest) (tabs false s.acDest) lev blocks s.word s.ss s.se s.ah s.al
      s.bits)
    (hdd : s.dcDest < 4) (had : s.acDest < 4) (hal : s.al ≤ 13)
    (e1 : d.specStart = s.ss) (e2 : d.specEnd = s.se) (e3 : d.succHigh = s.ah) (e4 : d.succLow = s.al)
    (e5 : d.numScans = 1) (e6 : d.zOrder[0]? = some 0)
    (e7 : ∀ c, d.components = [c] → c.dcHuffTable = s.dcDest ∧ c.acHuffTable = s.acDest)
    (hss : s.ss = 0) (hah : s.ah = 0)
    (hlate : ∀ x ∈ (dcDiffs s.al 0 blocks).getLast?,
      (dcCode s.word x).length + padCount s.bits.length < 16) (hne : blocks ≠ [])
    (hscript : Script blocks tabs (setLevel lev s.ss s.se s.al) rest levEnd)
    (hmax : 1 + rest.length ≤ o.getMaxScans) :
    ∃ d' rd' tabs', runScans [bufOf lev blocks, [], []]
        ⟨d, stuffBytes (packBytes (padBits s.bits)) ++ scansBytes after rest⟩ =
        (.ok [bufOf levEnd blocks, [], []], ⟨d', rd'⟩) ∧ ProgInv w h qt f o tabs' 1 d' := by
  obtain ⟨m, r, mk, hhead, hk, h0, hf⟩ := scansBytes_head ha rest
  have hbud : (rest.length + 1) * blocks.length + 1 = blocks.length + (rest.length * blocks.length + 1) := by
    rw [Nat.add_one_mul]
    omega
  rw [hbud] at hi
  obtain ⟨t0, ht0⟩ : ∃ t0 : T, ({ dec := d, io := progIo ⟨d, stuffBytes (packBytes (padBits s.bits)) ++
    scansBytes after rest⟩ } : T) = t0 := ⟨_, rfl⟩
  obtain ⟨t1, g1, hi1, hrep, hl⟩ := hi.scan (by omega) hdata hdd had hal e1 e2 e3 e4 e5 e6 e7 hblk hcount
    h0 hf (by rw [hk]; rfl) (t := t0) (by rw [← ht0]) (by rw [← ht0]; rfl) (by rw [← ht0]; rfl)
    (by rw [← ht0]; rfl) (r := r) (by rw [← ht0, ← hhead]; rfl)
  -- the marker has been seen
  obtain ⟨mk', hmk⟩ : ∃ mk', t1.io.bs.marker = some mk' := by
    rcases hm : t1.io.bs.marker with _ | mk'
    · exfalso
      obtain ⟨x, hx⟩ : ∃ x, (dcDiffs s.al 0 blocks).getLast? = some x := by
        cases hb : dcDiffs s.al 0 blocks with
        | nil =>
          cases blocks with
          | nil => exact absurd rfl hne
          | cons b bs => cases hb
        | cons y ys => exact ⟨_, List.getLast?_eq_some_getLast (by simp)⟩
      have a1 := hl hss hah x hx hm
      have a2 := hlate x hx
      have he := congrArg List.length (hrep.exact hm (by simp))
      rw [List.length_append, t1.io.avail_length hrep.le, List.length_replicate] at he
      omega
    · exact ⟨mk', rfl⟩
  obtain ⟨k1, k2⟩ := marker_only hrep hmk
  rw [hk] at k1
  cases k1
  obtain ⟨t2, ht2⟩ : ∃ t2 : T, { t1 with io := { t1.io with bs := { t1.io.bs with marker := none } } } = t2 :=
    ⟨_, rfl⟩
  have htake : takeMarker t1 = (.ok mk, t2) := by
    unfold takeMarker
    rw [hmk, ← ht2]
  have hfuel := scansFuel_le ha rest
  rw [hhead, List.length_cons, List.length_cons] at hfuel
  obtain ⟨t3, tabs', g3, hi3⟩ := scanLoop_script hblk hcount ha rest tabs _ 1 t2 m r mk
    (t2.io.rd.length + 1) hscript (by rw [← ht2]; exact hi1) hhead hk (by rw [← ht2]; exact k2)
    (by rw [← ht2]) (by rw [← ht2]; show _ ≤ t1.io.rd.length + 1; rw [k2]; omega) hmax
  refine ⟨t3.dec, t3.io.rd, tabs', ?_, hi3⟩
  unfold runScans
  rw [ht0]
  unfold progScans
  rw [M.bind_ok g1, M.bind_ok htake, M.bind_ok (M.get_apply _), g3]

end

end Zune
