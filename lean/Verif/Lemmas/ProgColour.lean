import Verif.Lemmas.ProgInter
import Verif.Lemmas.ColourOut
import Verif.Lemmas.ColourHead
/-! Progressive images with three components: scans. -/

namespace Zune
open Spec

/-! ### States between the blocks of a scan with several components -/

theorem dcRefine_any {b : Bool} {s : B} {rest : List Bool} {tail} (x : I16)
    (h : Rep s (b :: rest) tail) :
    ∃ v s', decodeProgDcRefine x s = (.ok v, s') ∧ Rep s' rest tail ∧ Kept s s' := by
  obtain ⟨s1, f1, f2, f3, k1⟩ := h.refillIfBelow 1 (by omega)
  obtain ⟨s2, g1, g2, -⟩ := f2.getBit (by
    rcases f3 with h | h
    · exact h
    · simp only [List.length_cons] at h; omega)
  have k2 : Kept s s2 := Kept.trans k1 (Kept.getBit g1)
  unfold decodeProgDcRefine
  rw [M.bind_ok f1, M.bind_ok g1, M.bind_ok (M.get_apply s2)]
  cases b
  · exact ⟨_, _, rfl, g2, k2⟩
  · exact ⟨_, _, rfl, g2, k2⟩

/-- First DC scan. -/
def InterFirstAt (d : Decoder) (cs : List Component) (B : Nat → Nat → Nat → List Int) (al : Nat)
    (word : Nat → Nat → List Bool) (rest : List Bool) (tail : Option (UInt8 × List UInt8))
    (cells R : List Cell) (n : Nat) (t : T) : Prop :=
  ∃ p pre, t.dec = multiDec d cs p n ∧ t.io.bs.succLow = al ∧
    Rep t.io (cellBits word (cellDiffs B al p R) ++ rest) tail ∧
    cellDiffs B al (fun _ => 0) cells = pre ++ cellDiffs B al p R ∧
    ∀ x ∈ pre.getLast?, t.io.bs.marker = none → 16 ≤ t.io.bs.bitsLeft + (dcCode (word x.1) x.2).length

/-- Refinement of the DC coefficients. -/
def InterRefineAt (d : Decoder) (cs : List Component) (B : Nat → Nat → Nat → List Int) (al : Nat)
    (rest : List Bool) (tail : Option (UInt8 × List UInt8)) (R : List Cell) (n : Nat) (t : T) : Prop :=
  ∃ p, t.dec = multiDec d cs p n ∧ t.io.bs.succLow = al ∧ Rep t.io (cellRefine B al R ++ rest) tail

section
variable {own : Nat → Nat → Nat → Prop} {lev : Nat → Nat → Option Nat}
  {comps : List Nat} {B : Nat → Nat → Nat → List Int} {al : Nat}
  {d : Decoder} {cs : List Component} {tab : Nat → HuffmanTable} {word : Nat → Nat → List Bool}
  {rest : List Bool} {tail : Option (UInt8 × List UInt8)} {cells : List Cell}

theorem interFirst_steps (hh : d.succHigh = 0) (hcs : ∀ i ∈ comps, ∃ c, cs[i]? = some c)
    {counts values : Nat → List Nat}
    (htab : ∀ i ∈ comps, Accepted (counts i) (values i) true true (tab i))
    (hcode : ∀ x ∈ cellDiffs B al (fun _ => 0) cells, x.1 ∈ comps →
      (word x.1 (category x.2), category x.2) ∈ codeBook (counts x.1) (values x.1) ∧
        (dcCode (word x.1) x.2).length ≤ 16) :
    InterSteps own lev comps B al d cs tab (InterFirstAt d cs B al word rest tail cells) where
  dec R n t h := by
    obtain ⟨p, -, h, -⟩ := h
    exact ⟨p, h⟩
  count R n m t h := by
    obtain ⟨p, pre, h1, h2, h3, h4, h5⟩ := h
    refine ⟨p, pre, ?_, h2, h3, h4, h5⟩
    show { t.dec with todo := m } = _
    rw [h1]
    rfl
  step i r k R n t x hi h _ := by
    obtain ⟨p, pre, h1, h2, h3, h4, -⟩ := h
    obtain ⟨c, hc⟩ := hcs i hi
    obtain ⟨dec, io, jobs⟩ := t
    dsimp only at h1 h2 h3
    subst h1
    obtain ⟨y, hy⟩ : ∃ y, pointDc al (cellDc B (i, r, k)) = y := ⟨_, rfl⟩
    rw [cellDiffs, hy] at h4 h3
    rw [hy]
    dsimp only at h3 h4
    rw [cellBits, List.flatMap_cons, List.append_assoc] at h3
    obtain ⟨g1, g2⟩ := hcode (i, y - p i) (by rw [h4]; simp) hi
    obtain ⟨io', e1, hrep, hk, hl⟩ := dcFirst_block (htab i hi) g1 g2 h2 h3
    refine ⟨BitVec.ofInt 16 (y * 2 ^ al), ⟨multiDec d cs (putPred p i y) n, io', jobs⟩, ?_,
      ⟨putPred p i y, pre ++ [(i, y - p i)], rfl, hk.low.trans h2, hrep, ?_, ?_⟩, fun _ => rfl⟩
    · unfold progDc
      have x1 : M.idx (multiDec d cs p n).components i (⟨multiDec d cs p n, io, jobs⟩ : T) =
          (.ok { c with dcPred := BitVec.ofInt 32 (p i) }, ⟨multiDec d cs p n, io, jobs⟩) := by
        unfold M.idx
        rw [multiDec_comp hc]
      have x2 : liftB (decodeProgDcFirst (tab i) (BitVec.ofInt 32 (p i)))
          (⟨multiDec d cs p n, io, jobs⟩ : T) =
          (.ok (BitVec.ofInt 16 (y * 2 ^ al), BitVec.ofInt 32 y), ⟨multiDec d cs p n, io', jobs⟩) := by
        unfold liftB
        rw [e1]
      have x3 : setPred i (BitVec.ofInt 32 y) (⟨multiDec d cs p n, io', jobs⟩ : T) =
          (.ok (), ⟨multiDec d cs (putPred p i y) n, io', jobs⟩) := by
        unfold setPred
        rw [← multiDec_modify]
      rw [M.bind_ok (M.get_apply _), M.bind_ok x1, if_pos (show (multiDec d cs p n).succHigh = 0 from hh),
        M.bind_ok x2]
      dsimp only
      rw [M.bind_ok x3]
      rfl
    · rw [h4, List.append_assoc]
      rfl
    · intro z hz
      rw [List.getLast?_concat] at hz
      cases hz
      exact hl

theorem interRefine_steps (hh : d.succHigh ≠ 0) (hcs : ∀ i ∈ comps, ∃ c, cs[i]? = some c)
    (hlev : ∀ i ∈ comps, lev i 0 = some (al + 1)) :
    InterSteps own lev comps B al d cs tab (InterRefineAt d cs B al rest tail) where
  dec R n t h := by
    obtain ⟨p, h, -⟩ := h
    exact ⟨p, h⟩
  count R n m t h := by
    obtain ⟨p, h1, h2, h3⟩ := h
    refine ⟨p, ?_, h2, h3⟩
    show { t.dec with todo := m } = _
    rw [h1]
    rfl
  step i r k R n t x hi h hx := by
    obtain ⟨p, h1, h2, h3⟩ := h
    obtain ⟨c, hc⟩ := hcs i hi
    obtain ⟨dec, io, jobs⟩ := t
    dsimp only at h1 h2 h3
    subst h1
    rw [cellRefine, List.map_cons, List.cons_append] at h3
    have key : ∃ v io', decodeProgDcRefine x io = (.ok v, io') ∧ Rep io' (cellRefine B al R ++ rest) tail ∧
        Kept io io' ∧ (own i r k → v = BitVec.ofInt 16 (pointDc al (cellDc B (i, r, k)) * 2 ^ al)) := by
      by_cases ho : own i r k
      · obtain ⟨io', e1, e2, e3⟩ := dcRefine_block h2 h3
        rw [hx ho, hlev i hi]
        exact ⟨_, io', e1, e2, e3, fun _ => rfl⟩
      · obtain ⟨v, io', e1, e2, e3⟩ := dcRefine_any x h3
        exact ⟨v, io', e1, e2, e3, fun h => absurd h ho⟩
    obtain ⟨v, io', e1, e2, e3, e4⟩ := key
    refine ⟨v, ⟨multiDec d cs p n, io', jobs⟩, ?_, ⟨p, rfl, e3.low.trans h2, e2⟩, e4⟩
    unfold progDc
    have x1 : M.idx (multiDec d cs p n).components i (⟨multiDec d cs p n, io, jobs⟩ : T) =
        (.ok { c with dcPred := BitVec.ofInt 32 (p i) }, ⟨multiDec d cs p n, io, jobs⟩) := by
      unfold M.idx
      rw [multiDec_comp hc]
    rw [M.bind_ok (M.get_apply _), M.bind_ok x1, if_neg (show ¬ (multiDec d cs p n).succHigh = 0 from hh)]
    unfold liftB
    rw [e1]

end

/-! ### Scans of an image with three components -/

namespace Spec

/-- Rows of blocks that a scan of component `i` alone has (T.81 A.2.2). -/
def ownRows (h fv i : Nat) : Nat := if i = 0 then (h + 7) / 8 else mcuRows h fv

/-- Columns of blocks that a scan of component `i` alone has. -/
def ownCols (w fh i : Nat) : Nat := if i = 0 then (w + 7) / 8 else mcuCols w fh

/-- The blocks of a component row by row. -/
def raster (rows cols : Nat) (b : Nat → Nat → List Int) : List (List Int) :=
  (List.range (rows * cols)).map fun n => b (n / cols) (n % cols)

end Spec

/-- Blocks in a row of the buffer of a component. -/
def bufCols (w fh i : Nat) : Nat := (colourShape fh 1 i).2 * mcuCols w fh

/-- Blocks in the buffer of a component. -/
def bufBlocks (w h fh fv i : Nat) : Nat := (colourShape fh fv i).1 * mcuRows h fv * bufCols w fh i

/-- What the buffers hold between two scans. -/
def ColourHolds (w h fh fv : Nat) (B : Nat → Nat → Nat → List Int) (lev : Nat → Nat → Option Nat)
    (bufs : List (List I16)) : Prop :=
  bufs.length = 3 ∧ ∀ i, i < 3 → ∃ buf, bufs[i]? = some buf ∧ buf.length = 64 * bufBlocks w h fh fv i ∧
    ∀ r k, r < ownRows h fv i → k < ownCols w fh i →
      blockAt buf (r * bufCols w fh i + k) = coded (approxBlock (lev i) (B i r k))

/-- The decoder between the scans of a progressive YCbCr image. -/
structure ProgColour (d : Decoder) (c0 c1 c2 : Component) (w h fh fv : Nat) : Prop extends
    ColourFrame d c0 c1 c2 w h fh fv where
  luma : c0.componentId = .y
  chroma : ∀ x ∈ [c1, c2], x.componentId ≠ .y
  id0 : c0.id = 1
  id1 : c1.id = 2
  id2 : c2.id = 3
  icomp : d.info.components = 3
  prog : d.isProgressive = true
  zlen : 3 ≤ d.zOrder.length

section
variable {d : Decoder} {c0 c1 c2 : Component} {w h fh fv : Nat}

theorem ProgColour.multi (R : ProgColour d c0 c1 c2 w h fh fv) (p : Nat → Int) (n : Nat) :
    ProgColour (multiDec d [c0, c1, c2] p n) { c0 with dcPred := BitVec.ofInt 32 (p 0) }
      { c1 with dcPred := BitVec.ofInt 32 (p 1) } { c2 with dcPred := BitVec.ofInt 32 (p 2) } w h fh fv := by
  obtain ⟨s1, s2, s3, s4, s5⟩ := R.shape
  have g1 := s5 c1 (by simp)
  have g2 := s5 c2 (by simp)
  have hch : ∀ x ∈ [{ c1 with dcPred := BitVec.ofInt 32 (p 1) }, { c2 with dcPred := BitVec.ofInt 32 (p 2) }],
      x.componentId ≠ .y := by
    intro x hx
    rcases List.mem_cons.1 hx with rfl | hx
    · exact R.chroma c1 (by simp)
    · rw [List.mem_singleton.1 hx]
      exact R.chroma c2 (by simp)
  have F : Frame (multiDec d [c0, c1, c2] p n) w h fh fv := by
    exact { width := R.frame.width, height := R.frame.height, wpos := R.frame.wpos, hpos := R.frame.hpos
            fpos := R.frame.fpos, hMax := R.frame.hMax, vMax := R.frame.vMax, inter := R.frame.inter
            ratio := R.frame.ratio, mcuX := R.frame.mcuX, mcuY := R.frame.mcuY
            comps := ⟨_, _, rfl, s1, s2, s3, s4, by
              intro x hx
              rcases List.mem_cons.1 hx with rfl | hx
              · exact g1
              · rw [List.mem_singleton.1 hx]
                exact g2⟩ }
  exact { frame := F, comps := rfl, dims := dims_of_frame F rfl R.luma hch, inCs := R.inCs, fh2 := R.fh2,
          fv2 := R.fv2, wLe := R.wLe, hLe := R.hLe, luma := R.luma, chroma := hch,
          id0 := R.id0, id1 := R.id1, id2 := R.id2, icomp := R.icomp, prog := R.prog, zlen := R.zlen }

theorem ProgColour.mcuX (R : ProgColour d c0 c1 c2 w h fh fv) : d.mcuX = mcuCols w fh := R.frame.mcuX
theorem ProgColour.mcuY (R : ProgColour d c0 c1 c2 w h fh fv) : d.mcuY = mcuRows h fv := R.frame.mcuY

/-- A component of the image. -/
theorem ProgColour.comp (R : ProgColour d c0 c1 c2 w h fh fv) {i : Nat} (hi : i < 3) :
    ∃ c, [c0, c1, c2][i]? = some c ∧ c.widthStride = 8 * bufCols w fh i ∧
      colourShape fh fv i = (c.verticalSample, c.horizontalSample) ∧
      (c.componentId = .y ↔ i = 0) := by
  obtain ⟨s1, s2, s3, s4, s5⟩ := R.shape
  rw [R.mcuX] at s4 s5
  have g1 := s5 c1 (by simp)
  have g2 := s5 c2 (by simp)
  have hi' : i = 0 ∨ i = 1 ∨ i = 2 := by omega
  rcases hi' with rfl | rfl | rfl
  · refine ⟨c0, rfl, ?_, ?_, by simp [R.luma]⟩
    · rw [s4]
      show _ = 8 * (fh * mcuCols w fh)
      ring
    · rw [s2, s3]
      rfl
  · refine ⟨c1, rfl, ?_, ?_, by simp [R.chroma c1]⟩
    · rw [g1.2.2.2]
      show _ = 8 * (1 * mcuCols w fh)
      ring
    · rw [g1.2.1, g1.2.2.1]
      rfl
  · refine ⟨c2, rfl, ?_, ?_, by simp [R.chroma c2]⟩
    · rw [g2.2.2.2]
      show _ = 8 * (1 * mcuCols w fh)
      ring
    · rw [g2.2.1, g2.2.2.1]
      rfl

/-- The blocks of a component alone are a part of the buffer. -/
theorem own_le (R : ProgColour d c0 c1 c2 w h fh fv) (i : Nat) :
    ownCols w fh i ≤ bufCols w fh i ∧ ownRows h fv i ≤ (colourShape fh fv i).1 * mcuRows h fv := by
  have hpos := R.frame.fpos
  have hf1 := R.fh2
  have hf2 := R.fv2
  unfold ownCols ownRows bufCols colourShape mcuCols mcuRows
  by_cases h0 : i = 0
  · rw [if_pos h0, if_pos h0, if_pos h0, if_pos h0]
    have e1 : fh = 1 ∨ fh = 2 := by omega
    have e2 : fv = 1 ∨ fv = 2 := by omega
    rcases e1 with rfl | rfl <;> rcases e2 with rfl | rfl <;> dsimp only <;> omega
  · rw [if_neg h0, if_neg h0, if_neg h0, if_neg h0]
    dsimp only
    omega

theorem ProgColour.start (R : ProgColour d c0 c1 c2 w h fh fv) :
    ({ d with components := d.components.map fun c => { c with dcPred := 0 } } : Decoder) =
      multiDec d [c0, c1, c2] (fun _ => 0) d.todo := by
  unfold multiDec
  rw [R.comps]
  rfl

/-- Before the first block of a scan with one component. -/
theorem parseEntropy_single (R : ProgColour d c0 c1 c2 w h fh fv) {k : Nat} (hk : k < 3)
    (hn : d.numScans = 1) (hz : d.zOrder[0]? = some k)
    (hsp : d.specStart = 0 → d.specEnd = 0) {t : T} (hd : t.dec = d) (bufs : List (List I16)) :
    parseEntropy bufs t = progLoop k (ownCols w fh k) (ownRows h fv k)
      ((ownCols w fh k + 1) * ownRows h fv k + 1) 0 0 bufs
      { t with io := { t.io with bs := t.io.bs.reset }
               dec := multiDec d [c0, c1, c2] (fun _ => 0) d.todo } := by
  subst hd
  obtain ⟨c, hc, -, -, hy⟩ := R.comp hk
  have e1 : M.ofOut t.dec.checkComponentDimensions t = (.ok (), t) := by rw [R.dims]; rfl
  have e2 : M.modify (fun t : T => { t with
      io := { t.io with bs := t.io.bs.reset }
      dec := { t.dec with components := t.dec.components.map fun c => { c with dcPred := 0 } } }) t =
      (.ok (), { t with
        io := { t.io with bs := t.io.bs.reset }
        dec := multiDec t.dec [c0, c1, c2] (fun _ => 0) t.dec.todo }) := by
    rw [← R.start]
    rfl
  unfold parseEntropy
  rw [M.bind_ok (M.get_apply _), M.bind_ok e1, M.bind_ok e2, M.bind_ok (M.get_apply _)]
  obtain ⟨t1, ht1⟩ : ∃ t1 : T, { t with
    io := { t.io with bs := t.io.bs.reset }
    dec := multiDec t.dec [c0, c1, c2] (fun _ => 0) t.dec.todo } = t1 := ⟨_, rfl⟩
  rw [ht1]
  dsimp only
  have a1 : t1.dec.numScans = 1 := by rw [← ht1]; exact hn
  have a2 : t1.dec.inputColorspace.numComponents = 3 := by
    rw [← ht1]
    show t.dec.inputColorspace.numComponents = 3
    rw [R.inCs]
    rfl
  have a3 : ¬ (t1.dec.specEnd ≠ 0 ∧ t1.dec.specStart = 0) := by
    rw [← ht1]
    show ¬ (t.dec.specEnd ≠ 0 ∧ t.dec.specStart = 0)
    exact fun h => h.1 (hsp h.2)
  have a4 : M.idx t1.dec.zOrder 0 t1 = (.ok k, t1) := by
    unfold M.idx
    have : t1.dec.zOrder[0]? = some k := by rw [← ht1]; exact hz
    rw [this]
  have a5 : t1.dec.components[k]? = some { c with dcPred := BitVec.ofInt 32 0 } := by
    rw [← ht1]
    exact multiDec_comp hc
  have a6 : M.idx t1.dec.components k t1 = (.ok { c with dcPred := BitVec.ofInt 32 0 }, t1) := by
    unfold M.idx
    rw [a5]
  have b1 : blocks8 t1.dec.info.width = (w + 7) / 8 := by
    rw [← ht1]
    show blocks8 t.dec.info.width = _
    rw [blocks8_eq (by rw [R.frame.width]; exact R.wLe), R.frame.width]
  have b2 : blocks8 t1.dec.info.height = (h + 7) / 8 := by
    rw [← ht1]
    show blocks8 t.dec.info.height = _
    rw [blocks8_eq (by rw [R.frame.height]; exact R.hLe), R.frame.height]
  have b3 : t1.dec.mcuX = mcuCols w fh := by rw [← ht1]; exact R.mcuX
  have b4 : t1.dec.mcuY = mcuRows h fv := by rw [← ht1]; exact R.mcuY
  have b5 : t1.dec.interleaved = !decide (fh = 1 ∧ fv = 1) := by rw [← ht1]; exact R.frame.inter
  rw [if_neg (by omega), if_pos a1, if_neg a3, M.bind_ok a4,
    if_neg (by have := (List.getElem?_eq_some_iff.1 a5).1; omega), M.bind_ok a6]
  have hdim : (if ({ c with dcPred := BitVec.ofInt 32 0 } : Component).componentId = .y ∨
      t1.dec.interleaved = false then (blocks8 t1.dec.info.width, blocks8 t1.dec.info.height)
      else (t1.dec.mcuX, t1.dec.mcuY)) = (ownCols w fh k, ownRows h fv k) := by
    rw [b1, b2, b3, b4, b5]
    unfold ownCols ownRows
    by_cases h0 : k = 0
    · rw [if_pos (Or.inl (hy.2 h0)), if_pos h0, if_pos h0]
    · rw [if_neg h0, if_neg h0]
      by_cases h11 : fh = 1 ∧ fv = 1
      · rw [if_pos (Or.inr (by simp [h11])), h11.1, h11.2]
        unfold mcuCols mcuRows
        rfl
      · rw [if_neg]
        rintro (hx | hx)
        · exact h0 (hy.1 hx)
        · simp at hx
          exact h11 hx
  dsimp only at hdim ⊢
  rw [hdim]

/-- Before the first block of a scan with several components. -/
theorem parseEntropy_inter (R : ProgColour d c0 c1 c2 w h fh fv) {comps : List Nat}
    (h2 : 2 ≤ comps.length) (h3 : comps.length ≤ 3)
    (hn : d.numScans = comps.length) (hse : d.specEnd = 0)
    {t : T} (hd : t.dec = d) (bufs : List (List I16)) :
    parseEntropy bufs t = M.foldM (samplePairs (mcuRows h fv) (mcuCols w fh)) bufs
      (fun bufs (ij : Nat × Nat) => M.foldM (List.range comps.length) bufs (interComponent ij.1 ij.2))
      { t with io := { t.io with bs := t.io.bs.reset }
               dec := multiDec d [c0, c1, c2] (fun _ => 0) d.todo } := by
  subst hd
  have e1 : M.ofOut t.dec.checkComponentDimensions t = (.ok (), t) := by rw [R.dims]; rfl
  have e2 : M.modify (fun t : T => { t with
      io := { t.io with bs := t.io.bs.reset }
      dec := { t.dec with components := t.dec.components.map fun c => { c with dcPred := 0 } } }) t =
      (.ok (), { t with
        io := { t.io with bs := t.io.bs.reset }
        dec := multiDec t.dec [c0, c1, c2] (fun _ => 0) t.dec.todo }) := by
    rw [← R.start]
    rfl
  unfold parseEntropy
  rw [M.bind_ok (M.get_apply _), M.bind_ok e1, M.bind_ok e2, M.bind_ok (M.get_apply _)]
  obtain ⟨t1, ht1⟩ : ∃ t1 : T, { t with
    io := { t.io with bs := t.io.bs.reset }
    dec := multiDec t.dec [c0, c1, c2] (fun _ => 0) t.dec.todo } = t1 := ⟨_, rfl⟩
  rw [ht1]
  dsimp only
  have a1 : t1.dec.numScans = comps.length := by rw [← ht1]; exact hn
  have a2 : t1.dec.inputColorspace.numComponents = 3 := by
    rw [← ht1]
    show t.dec.inputColorspace.numComponents = 3
    rw [R.inCs]
    rfl
  have a3 : t1.dec.specEnd = 0 := by rw [← ht1]; exact hse
  have b3 : t1.dec.mcuX = mcuCols w fh := by rw [← ht1]; exact R.mcuX
  have b4 : t1.dec.mcuY = mcuRows h fv := by rw [← ht1]; exact R.mcuY
  rw [if_neg (by omega), if_neg (by omega), if_neg (by omega), b3, b4, a1]

end

/-! ### One scan -/

namespace Spec

/-- A scan of an image with three components and the tables defined before it: components in the order of
the scan, destinations of their tables, parameters, code words and data. -/
structure CScan where
  tables : List Dht
  comps : List Nat
  dcDest : Nat → Nat
  acDest : Nat → Nat
  ss : Nat
  se : Nat
  ah : Nat
  al : Nat
  word : Nat → Nat → List Bool
  bits : List Bool

/-- The bytes of the scan header after the marker. -/
def CScan.header (s : CScan) : List UInt8 :=
  [0, UInt8.ofNat (6 + 2 * s.comps.length), UInt8.ofNat s.comps.length] ++
  (s.comps.flatMap fun i => [UInt8.ofNat (i + 1), UInt8.ofNat (16 * s.dcDest i + s.acDest i)]) ++
  [UInt8.ofNat s.ss, UInt8.ofNat s.se, UInt8.ofNat (16 * s.ah + s.al)]

/-- The bytes of a scan and of the tables before it. -/
def CScan.bytes (s : CScan) : List UInt8 :=
  (s.tables.map Dht.segment).flatMap Segment.bytes ++ 0xFF :: 0xDA :: (s.header ++
    stuffBytes (packBytes (padBits s.bits)))

/-- The blocks that component `i` has in an image of `w` x `h` pixels, row by row. -/
def ownBlocks (w h fh fv : Nat) (B : Nat → Nat → Nat → List Int) (i : Nat) : List (List Int) :=
  raster (ownRows h fv i) (ownCols w fh i) (B i)

/-- The data of a scan, when `lev i` is known of component `i`: a scan of one component, or a scan with
the DC coefficients of several. -/
def CScan.Data (s : CScan) (w h fh fv : Nat) (B : Nat → Nat → Nat → List Int) (tabs : Tabs)
    (lev : Nat → Nat → Option Nat) : Prop :=
  (∃ i, s.comps = [i] ∧ i < 3 ∧ ScanData (tabs true (s.dcDest i)) (tabs false (s.acDest i)) (lev i)
    (ownBlocks w h fh fv B i) (s.word i) s.ss s.se s.ah s.al s.bits) ∨
  (2 ≤ s.comps.length ∧ s.comps.Nodup ∧ (∀ i ∈ s.comps, i < 3) ∧ s.ss = 0 ∧ s.se = 0 ∧
    InterData (fun i => tabs true (s.dcDest i)) lev s.comps B s.word
      (scanCells (colourShape fh fv) s.comps (mcuRows h fv) (mcuCols w fh)) s.ah s.al s.bits)

/-- What is known after a scan. -/
def CScan.level (s : CScan) (lev : Nat → Nat → Option Nat) : Nat → Nat → Option Nat :=
  fun i => if i ∈ s.comps then setLevel (lev i) s.ss s.se s.al else lev i

/-- The last code of a first DC scan. -/
def CScan.lastCode (s : CScan) (w h fh fv : Nat) (B : Nat → Nat → Nat → List Int) : Option (List Bool) :=
  match s.comps with
  | [i] => (dcDiffs s.al 0 (ownBlocks w h fh fv B i)).getLast?.map (dcCode (s.word i))
  | _ => (cellDiffs B s.al (fun _ => 0)
      (scanCells (colourShape fh fv) s.comps (mcuRows h fv) (mcuCols w fh))).getLast?.map
        fun x => dcCode (s.word x.1) x.2

/-- Number of data units of a scan. -/
def CScan.units (s : CScan) (w h fh fv : Nat) : Nat :=
  match s.comps with
  | [i] => ownRows h fv i * ownCols w fh i
  | _ => (scanCells (colourShape fh fv) s.comps (mcuRows h fv) (mcuCols w fh)).length

end Spec

theorem raster_get {rows cols : Nat} {b : Nat → Nat → List Int} {n : Nat} (hn : n < rows * cols) :
    (raster rows cols b)[n]? = some (b (n / cols) (n % cols)) := by
  unfold raster
  rw [List.getElem?_map, List.getElem?_range hn]
  rfl

theorem raster_length (rows cols : Nat) (b : Nat → Nat → List Int) :
    (raster rows cols b).length = rows * cols := by
  simp [raster]

theorem holds_raster {rows cols S : Nat} {b : Nat → Nat → List Int} {lev : Nat → Option Nat}
    {buf : List I16} : Holds (gridPos cols S) lev (raster rows cols b) buf ↔
      ∀ r k, r < rows → k < cols → blockAt buf (r * S + k) = coded (approxBlock lev (b r k)) := by
  constructor
  · intro h r k hr hk
    have hlt : r * cols + k < rows * cols := by
      have : (r + 1) * cols ≤ rows * cols := Nat.mul_le_mul_right _ hr
      rw [Nat.add_one_mul] at this
      omega
    have := h (r * cols + k) _ (raster_get hlt)
    rw [gridPos_at hk, Nat.mul_comm r cols, Nat.mul_add_div (by omega), Nat.div_eq_of_lt hk,
      Nat.mul_add_mod, Nat.mod_eq_of_lt hk, Nat.add_zero] at this
    exact this
  · intro h n x hx
    have hn : n < rows * cols := by
      have := (List.getElem?_eq_some_iff.1 hx).1
      rwa [raster_length] at this
    rw [raster_get hn] at hx
    cases hx
    have h0 : 0 < cols := Nat.pos_of_ne_zero fun hz => by rw [hz] at hn; omega
    exact h _ _ ((Nat.div_lt_iff_lt_mul h0).2 hn) (Nat.mod_lt _ h0)

/-- The decoder in a scan of component `k` alone. -/
def singleDec (d : Decoder) (cs : List Component) (k : Nat) (q : I32) (n : Nat) : Decoder :=
  multiDec d cs (fun i => if i = k then q.toInt else 0) n

theorem singleDec_scan (d : Decoder) {cs : List Component} {k : Nat} {c : Component}
    (hc : cs[k]? = some c) : ScanDec (singleDec d cs k) d k c where
  comp q n := by
    unfold singleDec
    rw [multiDec_comp hc, if_pos rfl, BitVec.ofInt_toInt]
  pred q n q' := by
    unfold singleDec
    have := multiDec_modify d cs (fun i => if i = k then q.toInt else 0) n k q'.toInt
    rw [BitVec.ofInt_toInt] at this
    rw [this]
    congr 1
    funext j
    unfold putPred
    by_cases hj : j = k
    · rw [if_pos hj, if_pos hj]
    · rw [if_neg hj, if_neg hj]
      exact if_neg hj
  todo _ _ := rfl
  count _ _ _ := rfl
  dcs _ _ := rfl
  acs _ _ := rfl
  start _ _ := rfl
  high _ _ := rfl

section
variable {d : Decoder} {c0 c1 c2 : Component} {w h fh fv : Nat}

/-- One scan of an image with three components. -/
theorem colour_scan (R : ProgColour d c0 c1 c2 w h fh fv) {s : CScan} {B : Nat → Nat → Nat → List Int}
    {tabs : Tabs} {lev : Nat → Nat → Option Nat} (hdata : s.Data w h fh fv B tabs lev)
    (e1 : d.specStart = s.ss) (e2 : d.specEnd = s.se) (e3 : d.succHigh = s.ah) (e4 : d.succLow = s.al)
    (e5 : d.numScans = s.comps.length) (e6 : ∀ k, k < s.comps.length → d.zOrder[k]? = s.comps[k]?)
    (e7 : ∀ i ∈ s.comps, ∀ c, [c0, c1, c2][i]? = some c → c.dcHuffTable = s.dcDest i ∧
      c.acHuffTable = s.acDest i)
    (hdest : ∀ i ∈ s.comps, s.dcDest i < 4 ∧ s.acDest i < 4) (hal : s.al ≤ 13)
    (hslot : ∀ k, k < 4 → Slot (tabs true k) true d.dcTables[k]? ∧ Slot (tabs false k) false d.acTables[k]?)
    (hblk : ∀ i r k, i < 3 → r < ownRows h fv i → k < ownCols w fh i → BlockOk (B i r k))
    {reserve : Nat} (hr : 1 ≤ reserve) (htodo : s.units w h fh fv + reserve ≤ d.todo)
    {m : UInt8} {r : List UInt8} (m0 : m ≠ 0) (mf : m ≠ 0xFF) (mk : (Marker.fromU8 m).isSome)
    {t : T} (hd : t.dec = d) (hlow : t.io.bs.succLow = d.succLow)
    (hstart : t.io.bs.specStart = d.specStart) (hstop : t.io.bs.specEnd = d.specEnd)
    (hrd : t.io.rd = stuffBytes (packBytes (padBits s.bits)) ++ 0xFF :: m :: r)
    {bufs : List (List I16)} (hb : ColourHolds w h fh fv B lev bufs) :
    ∃ bufs' t' p n, parseEntropy bufs t = (.ok bufs', t') ∧ ColourHolds w h fh fv B (s.level lev) bufs' ∧
      t'.dec = multiDec d [c0, c1, c2] p n ∧ reserve ≤ n ∧
      Rep t'.io (List.replicate (padCount s.bits.length) true) (some (m, r)) ∧
      (s.ss = 0 → s.ah = 0 → ∀ x ∈ s.lastCode w h fh fv B,
        t'.io.bs.marker = none → 16 ≤ t'.io.bs.bitsLeft + x.length) := by
  obtain ⟨t0, ht0⟩ : ∃ t0 : T, { t with
    io := { t.io with bs := t.io.bs.reset }
    dec := multiDec d [c0, c1, c2] (fun _ => 0) d.todo } = t0 := ⟨_, rfl⟩
  have hrep : Rep t0.io (s.bits ++ List.replicate (padCount s.bits.length) true) (some (m, r)) := by
    rw [← ht0]
    show Rep ⟨t.io.bs.reset, t.io.rd⟩ _ _
    rw [hrd]
    exact rep_bits m0 mf mk _ rfl rfl
  have hdec0 : t0.dec = multiDec d [c0, c1, c2] (fun _ => 0) d.todo := by rw [← ht0]
  have hlow0 : t0.io.bs.succLow = d.succLow := by rw [← ht0]; exact hlow
  obtain ⟨hb3, hball⟩ := hb
  rcases hdata with ⟨i, hi, hi3, hsd⟩ | ⟨h2, hnd, hi3, hss, hse, hid⟩
  · -- one component
    obtain ⟨c, hc, hst, -, -⟩ := R.comp hi3
    obtain ⟨o1, o2⟩ := own_le R i
    have him : i ∈ s.comps := by rw [hi]; simp
    obtain ⟨g1, g2⟩ := e7 i him c hc
    obtain ⟨f1, f2⟩ := hdest i him
    have hsp : d.specStart = 0 → d.specEnd = 0 := by
      rw [e1, e2]
      revert hsd
      generalize s.ss = ss
      generalize s.se = se
      generalize s.ah = ah
      generalize s.al = al
      generalize s.bits = bits
      intro hdata hs
      cases hdata <;> omega
    have heq := parseEntropy_single R hi3 (by rw [e5, hi]; rfl) (by rw [e6 0 (by rw [hi]; simp), hi]; rfl)
      hsp hd bufs
    rw [ht0] at heq
    rw [heq]
    have hunits : s.units w h fh fv = (ownBlocks w h fh fv B i).length := by
      unfold CScan.units ownBlocks
      rw [hi, raster_length]
    have hat : ∀ R', R'.length ≤ (ownBlocks w h fh fv B i).length →
        At (singleDec d [c0, c1, c2] i) d reserve (BitVec.ofInt 32 0) R' t0 := by
      intro R' hR'
      refine ⟨⟨d.todo, ?_, by omega⟩, hlow0, by rw [← ht0]; exact hstart, by rw [← ht0]; exact hstop⟩
      rw [hdec0]
      unfold singleDec
      congr 1
      funext j
      rw [show (BitVec.ofInt 32 0).toInt = 0 from rfl]
      split <;> rfl
    obtain ⟨buf, b1, b2, b3⟩ := hball i hi3
    rw [← e1, ← e2, ← e3, ← e4] at hsd
    obtain ⟨t', q, todo, buf', k1, k2, k3, k4, k5, k6, k7⟩ := scan_core
      (S := bufCols w fh i) (L := bufBlocks w h fh fv i) (mw := ownCols w fh i) (mh := ownRows h fv i)
      (singleDec_scan d hc) (by rw [hst]; omega) o1
      (Nat.mul_le_mul_right _ o2) hsd (by rw [g1]; exact (hslot _ f1).1) (by rw [g2]; exact (hslot _ f2).2)
      (by rw [g1]; exact f1) (by rw [e4]; omega)
      (by
        intro x hx
        obtain ⟨n, hn⟩ := List.getElem?_of_mem hx
        have hlt : n < ownRows h fv i * ownCols w fh i := by
          have := (List.getElem?_eq_some_iff.1 hn).1
          rwa [ownBlocks, raster_length] at this
        rw [ownBlocks, raster_get hlt] at hn
        cases hn
        have h0 : 0 < ownCols w fh i := Nat.pos_of_ne_zero fun hz => by rw [hz] at hlt; omega
        exact hblk i _ _ hi3 ((Nat.div_lt_iff_lt_mul h0).2 hlt) (Nat.mod_lt _ h0))
      (by rw [ownBlocks, raster_length]) hr hrep hat (by rw [← ht0]; rfl) b1 b2
      (holds_raster.2 b3)
    refine ⟨_, t', _, todo, k1, ⟨by rw [List.length_set]; exact hb3, fun j hj => ?_⟩, k4, k5, k6, ?_⟩
    · by_cases hji : j = i
      · subst hji
        refine ⟨buf', List.getElem?_set_self (by omega), k2, ?_⟩
        rw [e1, e2, e4] at k3
        unfold CScan.level
        rw [if_pos him]
        exact holds_raster.1 k3
      · obtain ⟨bj, q1, q2, q3⟩ := hball j hj
        refine ⟨bj, by rw [List.getElem?_set_ne (fun e => hji e.symm)]; exact q1, q2, ?_⟩
        unfold CScan.level
        rw [if_neg (by rw [hi]; simpa using hji)]
        exact q3
    · rw [e1, e3, e4] at k7
      intro hs0 ha0 x hx
      unfold CScan.lastCode at hx
      rw [hi] at hx
      obtain ⟨y, hy, rfl⟩ := Option.map_eq_some_iff.1 hx
      exact k7 hs0 ha0 y hy
  · -- several components
    have hl3 : s.comps.length ≤ 3 := by
      have := hnd.subperm (l₂ := List.range 3) fun i hi => List.mem_range.2 (hi3 i hi)
      have := this.length_le
      simpa using this
    have heq := parseEntropy_inter R h2 hl3 e5 (by rw [e2]; exact hse) hd bufs
    rw [ht0] at heq
    rw [heq]
    obtain ⟨cells, hcells⟩ : ∃ x, scanCells (colourShape fh fv) s.comps (mcuRows h fv) (mcuCols w fh) = x :=
      ⟨_, rfl⟩
    have hunits : s.units w h fh fv = cells.length := by
      unfold CScan.units
      split
      · rename_i j hj
        rw [hj] at h2
        simp at h2
      · rw [hcells]
    have hlast : s.lastCode w h fh fv B =
        (cellDiffs B s.al (fun _ => 0) cells).getLast?.map fun x => dcCode (s.word x.1) x.2 := by
      unfold CScan.lastCode
      split
      · rename_i j hj
        rw [hj] at h2
        simp at h2
      · rw [hcells]
    have hcs : ∀ i ∈ s.comps, ∃ c, [c0, c1, c2][i]? = some c := by
      intro i hi
      obtain ⟨c, hc, -⟩ := R.comp (hi3 i hi)
      exact ⟨c, hc⟩
    -- the tables
    have htabs : ∀ i, ∃ (tab : HuffmanTable) (counts values : List Nat), i ∈ s.comps →
        ∀ h, tabs true (s.dcDest i) = some h → ∀ c, [c0, c1, c2][i]? = some c →
          d.dcTables[c.dcHuffTable]? = some (some tab) ∧ Accepted counts values true true tab ∧
            codeBook counts values = h.book := by
      intro i
      by_cases him : i ∈ s.comps
      · rcases hx : tabs true (s.dcDest i) with _ | hb
        · exact ⟨⟨[], [], [], none, [], []⟩, [], [], fun _ _ h => by cases h⟩
        · obtain ⟨counts, values, tab, q1, q2, q3⟩ := (hslot _ (hdest i him).1).1 hb hx
          refine ⟨tab, counts, values, fun _ h hh c hc => ?_⟩
          cases hh
          rw [(e7 i him c hc).1]
          exact ⟨q1, q2, q3⟩
      · exact ⟨⟨[], [], [], none, [], []⟩, [], [], fun h => absurd h him⟩
    choose tab counts values htabs using htabs
    have hshape : ∀ i c, [c0, c1, c2][i]? = some c →
        colourShape fh fv i = (c.verticalSample, c.horizontalSample) := by
      intro i c hc
      have hi : i < 3 := (List.getElem?_eq_some_iff.1 hc).1
      obtain ⟨c', hc', -, hs, -⟩ := R.comp hi
      rw [hc] at hc'
      cases hc'
      exact hs
    have G : InterShape (fun i r k => i < 3 ∧ r < ownRows h fv i ∧ k < ownCols w fh i) (bufCols w fh)
        (bufBlocks w h fh fv) s.comps B [c0, c1, c2] (mcuRows h fv) (mcuCols w fh) := by
      refine ⟨fun i r k ho => ?_, fun i hi => ?_, hnd⟩
      · exact ⟨Nat.lt_of_lt_of_le ho.2.2 (own_le R i).1, (hblk i r k ho.1 ho.2.1 ho.2.2).len⟩
      · obtain ⟨c, hc, q1, q2, -⟩ := R.comp (hi3 i hi)
        have hp := R.frame.fpos
        have e : (colourShape fh 1 i).2 = (colourShape fh fv i).2 := by
          unfold colourShape
          split <;> rfl
        have hpos : 0 < (colourShape fh fv i).1 ∧ 0 < (colourShape fh fv i).2 := by
          unfold colourShape
          split
          · exact ⟨hp.2, hp.1⟩
          · exact ⟨Nat.one_pos, Nat.one_pos⟩
        unfold bufBlocks bufCols
        rw [e]
        rw [q2] at hpos ⊢
        refine ⟨c, hc, ?_, hpos.1, hpos.2, Nat.le_of_eq (Nat.mul_comm _ _), Nat.le_of_eq ?_⟩
        · rw [q1, bufCols, e, q2]
        · dsimp only
          ring
    have hH : InterHolds (fun i r k => i < 3 ∧ r < ownRows h fv i ∧ k < ownCols w fh i) (bufCols w fh)
        (bufBlocks w h fh fv) lev s.comps B s.al 3 cells bufs := by
      refine ⟨hb3, fun i hi => ?_⟩
      obtain ⟨buf, b1, b2, b3⟩ := hball i hi
      refine ⟨buf, b1, b2, fun r' k' ho => ⟨fun hx => ?_, fun _ => b3 r' k' ho.2.1 ho.2.2⟩⟩
      -- all blocks are still to come
      exfalso
      apply hx.2
      obtain ⟨c, hc, -, q2, -⟩ := R.comp hi
      have hp := R.frame.fpos
      have hpos : 0 < (colourShape fh fv i).1 ∧ 0 < (colourShape fh fv i).2 := by
        unfold colourShape
        split
        · exact ⟨hp.2, hp.1⟩
        · exact ⟨Nat.one_pos, Nat.one_pos⟩
      obtain ⟨o1, o2⟩ := own_le R i
      have hk : k' < (colourShape fh fv i).2 * mcuCols w fh := by
        have e : (colourShape fh 1 i).2 = (colourShape fh fv i).2 := by
          unfold colourShape
          split <;> rfl
        have := Nat.lt_of_lt_of_le ho.2.2 o1
        unfold bufCols at this
        rwa [e] at this
      have hr' : r' < (colourShape fh fv i).1 * mcuRows h fv := Nat.lt_of_lt_of_le ho.2.1 o2
      rw [← hcells]
      unfold scanCells
      refine List.mem_flatMap.2 ⟨r' / (colourShape fh fv i).1,
        List.mem_range.2 (Nat.div_lt_of_lt_mul hr'), List.mem_flatMap.2 ⟨k' / (colourShape fh fv i).2,
        List.mem_range.2 (Nat.div_lt_of_lt_mul hk), List.mem_flatMap.2 ⟨i, hx.1, ?_⟩⟩⟩
      unfold compCells
      refine List.mem_flatMap.2 ⟨r' % (colourShape fh fv i).1, List.mem_range.2 (Nat.mod_lt _ hpos.1),
        List.mem_map.2 ⟨k' % (colourShape fh fv i).2, List.mem_range.2 (Nat.mod_lt _ hpos.2), ?_⟩⟩
      rw [Nat.div_add_mod', Nat.div_add_mod']
    have fin : ∀ {Q : List Cell → Nat → T → Prop},
        InterSteps (fun i r k => i < 3 ∧ r < ownRows h fv i ∧ k < ownCols w fh i) lev s.comps B s.al d
          [c0, c1, c2] tab Q →
        (∀ i ∈ s.comps, ∃ t, tabs true (s.dcDest i) = some t) → Q cells d.todo t0 →
        (∀ n t', Q [] n t' → Rep t'.io (List.replicate (padCount s.bits.length) true) (some (m, r)) ∧
          (s.ss = 0 → s.ah = 0 → ∀ x ∈ s.lastCode w h fh fv B,
            t'.io.bs.marker = none → 16 ≤ t'.io.bs.bitsLeft + x.length)) →
        ∃ bufs' t' p n, M.foldM (samplePairs (mcuRows h fv) (mcuCols w fh)) bufs
            (fun bufs (ij : Nat × Nat) => M.foldM (List.range s.comps.length) bufs (interComponent ij.1 ij.2))
            t0 = (.ok bufs', t') ∧ ColourHolds w h fh fv B (s.level lev) bufs' ∧
          t'.dec = multiDec d [c0, c1, c2] p n ∧ reserve ≤ n ∧
          Rep t'.io (List.replicate (padCount s.bits.length) true) (some (m, r)) ∧
          (s.ss = 0 → s.ah = 0 → ∀ x ∈ s.lastCode w h fh fv B,
            t'.io.bs.marker = none → 16 ≤ t'.io.bs.bitsLeft + x.length) := by
      intro Q I htab hQ hend
      obtain ⟨bufs', t', n', a1, a2, a3, a4⟩ := inter_loop I G hshape
        (fun i hi c hc => by
          obtain ⟨x, hx⟩ := htab i hi
          exact (htabs i hi x hx c hc).1) e6 hr (n := d.todo) (by rw [hcells]; omega)
        (by rw [hcells]; exact hQ) (by rw [hcells]; exact hH)
      obtain ⟨p, hp⟩ := I.dec _ _ _ a2
      obtain ⟨z1, z2⟩ := hend n' t' a2
      refine ⟨bufs', t', p, n', a1, ⟨a4.1, fun i hi => ?_⟩, hp, a3, z1, z2⟩
      obtain ⟨buf, y1, y2, y3⟩ := a4.2 i hi
      refine ⟨buf, y1, y2, fun r' k' hr' hk' => ?_⟩
      obtain ⟨v1, v2⟩ := y3 r' k' ⟨hi, hr', hk'⟩
      unfold CScan.level
      by_cases him : i ∈ s.comps
      · rw [if_pos him, hss, hse]
        exact v1 ⟨him, by simp⟩
      · rw [if_neg him]
        exact v2 fun hx => him hx.1
    rw [hcells] at hid
    revert hid
    obtain ⟨ah, hah⟩ : ∃ x, s.ah = x := ⟨_, rfl⟩
    obtain ⟨al, hal'⟩ : ∃ x, s.al = x := ⟨_, rfl⟩
    obtain ⟨bits, hbits⟩ : ∃ x, s.bits = x := ⟨_, rfl⟩
    rw [hlast] at fin ⊢
    rw [hah] at e3 fin ⊢
    rw [hal'] at e4 fin ⊢
    rw [hbits] at hrep fin ⊢
    intro hid
    cases hid with
    | first htab hcode =>
      refine fin (interFirst_steps (word := s.word)
        (rest := List.replicate (padCount (cellBits s.word (cellDiffs B al (fun _ => 0) cells)).length) true)
        (tail := some (m, r)) (cells := cells) e3 hcs (counts := counts) (values := values) ?_ ?_) htab
        ⟨fun _ => 0, [], hdec0, by rw [hlow0, e4], hrep, rfl, by simp⟩ ?_
      · intro i hi
        obtain ⟨x, hx⟩ := htab i hi
        obtain ⟨c, hc⟩ := hcs i hi
        exact (htabs i hi x hx c hc).2.1
      · intro x hx hi
        obtain ⟨y, hy⟩ := htab x.1 hi
        obtain ⟨c, hc⟩ := hcs x.1 hi
        rw [(htabs x.1 hi y hy c hc).2.2]
        exact hcode x hx y hy
      · rintro n t' ⟨p, pre, -, -, q3, q4, q5⟩
        refine ⟨q3, fun _ _ x hx => ?_⟩
        rw [q4, cellDiffs, List.append_nil] at hx
        obtain ⟨y, hy, rfl⟩ := Option.map_eq_some_iff.1 hx
        exact q5 y hy
    | refine htab =>
      refine fin (interRefine_steps (rest := List.replicate (padCount (cellRefine B al cells).length) true)
        (tail := some (m, r)) (by omega) hcs fun i hi => (htab i hi).2) (fun i hi => (htab i hi).1)
        ⟨fun _ => 0, hdec0, by rw [hlow0, e4], hrep⟩ ?_
      rintro n t' ⟨p, -, -, q3⟩
      exact ⟨q3, fun _ hx => by omega⟩

end

end Zune
