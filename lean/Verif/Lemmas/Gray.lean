import Verif.Props.Blocks
import Verif.Lemmas.Encoder
import Verif.Lemmas.Rows
import Verif.Model.Mcu
/-! The scan decoder on coded data of one component. -/

namespace Zune
open Spec

/-! ### Blocks -/

theorem zigzag_idxOf {k z : Nat} (h : zigzag[k]? = some z) : zigzag.idxOf z = k := by
  obtain ⟨hk, rfl⟩ := List.getElem?_eq_some_iff.1 h
  exact List.Nodup.idxOf_getElem zigzag_nodup k hk

theorem zigzag_surj (z : Nat) (h : z < 64) : ∃ k, k < 64 ∧ zigzag[k]? = some z := by
  have : ∀ z : Fin 64, zigzag[zigzag.idxOf (z : Nat)]? = some (z : Nat) := by decide +kernel
  have hz := this ⟨z, h⟩
  refine ⟨_, ?_, hz⟩
  have := (List.getElem?_eq_some_iff.1 hz).1
  rwa [zigzag_length] at this

/-- The coefficients of a block in natural order, as the decoder stores them. -/
def coded (b : List Int) : List I16 := (naturalOrder b).map (BitVec.ofInt 16)

theorem coded_length (b : List Int) : (coded b).length = 64 := by
  simp [coded, naturalOrder]

theorem coded_get {b : List Int} {k z : Nat} (hz : zigzag[k]? = some z) {x : Int}
    (hx : b[k]? = some x) : (coded b)[z]? = some (BitVec.ofInt 16 x) := by
  have hlt := zigzag_lt _ (List.mem_of_getElem? hz)
  unfold coded naturalOrder
  rw [List.getElem?_map, List.getElem?_map, List.getElem?_range hlt]
  simp only [Option.map_some]
  rw [zigzag_idxOf hz, List.getD_eq_getElem?_getD, hx]
  rfl

theorem ofInt_diff (p x : Int) :
    BitVec.ofInt 32 p + BitVec.ofInt 32 (x - p) = BitVec.ofInt 32 x := by
  rw [← BitVec.ofInt_add]
  congr 1
  omega

theorem setWidth_ofInt (x : Int) : (BitVec.ofInt 32 x).setWidth 16 = BitVec.ofInt 16 x := by
  apply BitVec.eq_of_toNat_eq
  simp only [BitVec.toNat_setWidth, BitVec.toNat_ofInt]
  omega

/-- The reader can decode the DC code. -/
def Ready (s : B) (n : Nat) : Prop := s.bs.bitsLeft < 16 ∨ n ≤ 16 ∨ n ≤ s.bs.bitsLeft

/-- Two Huffman tables made from the codes. -/
structure Tables (c : Codes) (dc ac : HuffmanTable) : Prop where
  dc : ∃ p vs, Accepted c.dcCounts vs true p dc ∧
    codeBook c.dcCounts vs = codeBook c.dcCounts c.dcValues
  ac : ∃ p vs, Accepted c.acCounts vs false p ac ∧
    codeBook c.acCounts vs = codeBook c.acCounts c.acValues

/-- A coded block is decoded. -/
theorem block_coded {c : Codes} {dc ac : HuffmanTable} (ht : Tables c dc ac) {pred : Int}
    {b : List Int} (hb : c.Block pred b) {s : B} {rest : List Bool} {tail}
    (h : Rep s (blockBits c.dcWord c.acWord pred b ++ rest) tail)
    (hready : Ready s (dcCode c.dcWord (dcOfBlock b - pred)).length) :
    ∃ s', decodeMcuBlock dc ac (List.replicate 64 0) (BitVec.ofInt 32 pred) s =
        (.ok (coded b), BitVec.ofInt 32 (dcOfBlock b), s') ∧
      Rep s' rest tail ∧ Late s' (endBits c.acWord b) := by
  obtain ⟨dp, dvs, hdc, ebd⟩ := ht.dc
  obtain ⟨ap, avs, hac, eba⟩ := ht.ac
  have hlen := hb.len
  obtain ⟨x, cs, rfl⟩ : ∃ x cs, b = x :: cs := by
    cases b with
    | nil => simp at hlen
    | cons x cs => exact ⟨x, cs, rfl⟩
  simp only [List.length_cons] at hlen
  obtain ⟨blk, s', r1, r2, r3, r4, r5, r6⟩ := block_round_trip hdc hac c.dcWord c.acWord
    (dcOfBlock (x :: cs) - pred) cs (BitVec.ofInt 32 pred) _ (by omega) rfl hb.size
    (by rw [ebd]; exact hb.dc) (by rw [eba]; exact hb.ac) hb.safe h hready
  rw [ofInt_diff] at r1 r3
  refine ⟨s', ?_, r5, r6⟩
  have : blk = coded (x :: cs) := by
    apply List.ext_getElem?
    intro z
    by_cases hz : z < 64
    · obtain ⟨k, hk, hkz⟩ := zigzag_surj z hz
      cases k with
      | zero =>
        rw [r3 z hkz, coded_get hkz (x := x) rfl]
        show some ((BitVec.ofInt 32 x).setWidth 16) = _
        rw [setWidth_ofInt]
      | succ k =>
        have hk' : k < cs.length := by omega
        rw [r4 k cs[k] z (List.getElem?_eq_getElem hk') hkz,
          coded_get hkz (x := cs[k]) (by rw [List.getElem?_cons_succ]; exact List.getElem?_eq_getElem hk')]
    · rw [List.getElem?_eq_none (by omega), List.getElem?_eq_none (by rw [coded_length]; omega)]
  rw [r1, this]

/-- After a block, the next DC code can be read. -/
theorem ready_next {c : Codes} {b b' : List Int} {s : B} {rest : List Bool} {tail}
    (hf : c.Follows b b') (hl : Late s (endBits c.acWord b))
    (h : Rep s (dcCode c.dcWord (dcOfBlock b' - dcOfBlock b) ++ rest) tail) :
    Ready s (dcCode c.dcWord (dcOfBlock b' - dcOfBlock b)).length := by
  rcases hf with hf | hf
  · exact Or.inr (Or.inl hf)
  · refine Or.inr (Or.inr ?_)
    by_cases hm : s.bs.marker = none
    · have := hl hm
      omega
    · have hp := h.pre.length_le
      rw [B.unread, if_neg hm, List.append_nil, s.avail_length h.le, List.length_append] at hp
      omega

/-- At the end of an interval the marker has been found. -/
theorem marker_found {k : Nat} {s : B} {rest : List Bool} {m : UInt8} {r : List UInt8}
    (h : Rep s rest (some (m, r))) (hr : rest.length ≤ 7) (hl : Late s k) (hk : k ≤ 24) :
    ∃ mk, s.bs.marker = some mk ∧ Marker.fromU8 m = some mk ∧ s.rd = r := by
  have ha := h.atEnd
  rcases hm : s.bs.marker with _ | mk
  · exfalso
    have he := congrArg List.length (h.exact hm (by simp))
    rw [List.length_append, s.avail_length h.le] at he
    have := hl hm
    omega
  · rw [B.atEnd, hm] at ha
    obtain ⟨m', e1, e2⟩ := ha
    cases e1
    exact ⟨mk, rfl, e2, rfl⟩

/-- A marker that the reader has found is the one that ends the interval. -/
theorem marker_only {s : B} {rest : List Bool} {m : UInt8} {r : List UInt8} {mk : Marker}
    (h : Rep s rest (some (m, r))) (hm : s.bs.marker = some mk) :
    Marker.fromU8 m = some mk ∧ s.rd = r := by
  have ha := h.atEnd
  rw [B.atEnd, hm] at ha
  obtain ⟨m', e1, e2⟩ := ha
  cases e1
  exact ⟨e2, rfl⟩

/-! ### The state during the scan -/

/-- What the scan decoder knows about a grayscale frame. -/
structure GrayFrame (d : Decoder) (c : Component) (dc ac : HuffmanTable) : Prop where
  dcTab : d.dcTables[c.dcHuffTable &&& 3]? = some (some dc)
  acTab : d.acTables[c.acHuffTable &&& 3]? = some (some ac)
  v1 : c.verticalSample = 1
  h1 : c.horizontalSample = 1
  inCs : d.inputColorspace = .grayscale
  outCs : d.options.getOutColorspace = .grayscale

/-- The decoder with DC prediction `p` and counter `k`. -/
def grayDec (d : Decoder) (c : Component) (p : I32) (k : Nat) : Decoder :=
  { d with components := [{ c with dcPred := p }], todo := k }

/-- The marker after an interval, and the bytes after it; `rest` are the intervals to come. -/
def tailOf (c : Codes) (k : Nat) (trailer : List UInt8) :
    List (List (List Int)) → UInt8 × List UInt8
  | [] => (0xD9, trailer)
  | iv :: ivs => (UInt8.ofNat (0xD0 + k % 8),
      scanBytes c.dcWord c.acWord (k + 1) (iv :: ivs) ++ 0xFF :: 0xD9 :: trailer)

theorem rst_marker (k : Nat) : ∃ i, Marker.fromU8 (UInt8.ofNat (0xD0 + k % 8)) = some (.rst i) := by
  have h : ∀ i : Fin 8, ∃ j, j < 8 ∧ Marker.fromU8 (UInt8.ofNat (0xD0 + (i : Nat))) = some (.rst j) := by
    decide +kernel
  obtain ⟨j, -, hj⟩ := h ⟨k % 8, by omega⟩
  exact ⟨j, hj⟩

theorem tail_ok (c : Codes) (k : Nat) (trailer : List UInt8) (rest : List (List (List Int))) :
    (tailOf c k trailer rest).1 ≠ 0 ∧ (tailOf c k trailer rest).1 ≠ 0xFF ∧
      (Marker.fromU8 (tailOf c k trailer rest).1).isSome := by
  cases rest with
  | nil => exact (by decide : (0xD9 : UInt8) ≠ 0 ∧ (0xD9 : UInt8) ≠ 0xFF ∧ (Marker.fromU8 0xD9).isSome)
  | cons iv ivs =>
    have h : ∀ i : Fin 8, UInt8.ofNat (0xD0 + (i : Nat)) ≠ 0 ∧ UInt8.ofNat (0xD0 + (i : Nat)) ≠ 0xFF ∧
        (Marker.fromU8 (UInt8.ofNat (0xD0 + (i : Nat)))).isSome := by decide +kernel
    exact h ⟨k % 8, by omega⟩

/-- The bytes of the intervals `iv :: rest` and of what follows them. -/
theorem scanBytes_tail (c : Codes) (k : Nat) (trailer : List UInt8) (iv : List (List Int))
    (rest : List (List (List Int))) :
    scanBytes c.dcWord c.acWord k (iv :: rest) ++ 0xFF :: 0xD9 :: trailer =
      intervalBytes c.dcWord c.acWord iv ++
        0xFF :: (tailOf c k trailer rest).1 :: (tailOf c k trailer rest).2 := by
  cases rest with
  | nil => rfl
  | cons iv' ivs => simp [scanBytes, tailOf]

section
variable (d : Decoder) (c : Component) (C : Codes) (trailer : List UInt8)

/-- The reader stands before the blocks `cur` of interval `k`, then the intervals `rest` follow. -/
structure GrayAt (k : Nat) (cur : List (List Int)) (rest : List (List (List Int))) (t : T)
    (p : Int) (todo : Nat) (pad : List Bool) : Prop where
  dec : t.dec = grayDec d c (BitVec.ofInt 32 p) todo
  padLen : pad.length ≤ 7
  blocks : C.Blocks p cur
  rep : Rep t.io (blocksBits C.dcWord C.acWord p cur ++ pad) (some (tailOf C k trailer rest))
  ready : ∀ b ∈ cur.head?, Ready t.io (dcCode C.dcWord (dcOfBlock b - p)).length
  more : rest ≠ [] → todo = cur.length ∧ C.Intervals d.restartInterval rest ∧
    d.restartInterval ≠ 0 ∧ ∀ b ∈ cur.getLast?, endBits C.acWord b ≤ 24

variable {d c C trailer}

theorem intervals_head {n : Nat} {iv : List (List Int)} {ivs : List (List (List Int))}
    (h : C.Intervals n (iv :: ivs)) : iv ≠ [] ∧ C.Blocks 0 iv := by
  cases ivs with
  | nil => exact ⟨h.1, h.2.1⟩
  | cons iv' ivs => exact ⟨h.1, h.2.1⟩

/-- The start of an interval. -/
theorem grayAt_start {k : Nat} {iv : List (List Int)} {ivs : List (List (List Int))} {n r : Nat}
    (h : C.Intervals r (iv :: ivs)) {t : T} (hdec : t.dec = grayDec d c 0 n)
    (hn : ivs ≠ [] → n = r ∧ d.restartInterval = r)
    (hb : t.io.bs.bitsLeft = 0) (hm : t.io.bs.marker = none)
    (hrd : t.io.rd = scanBytes C.dcWord C.acWord k (iv :: ivs) ++ 0xFF :: 0xD9 :: trailer) :
    GrayAt d c C trailer k iv ivs t 0 n
      (List.replicate (padCount (blocksBits C.dcWord C.acWord 0 iv).length) true) := by
  obtain ⟨t0, t1, t2⟩ := tail_ok C k trailer ivs
  refine ⟨hdec, by rw [List.length_replicate]; exact padCount_le _, (intervals_head h).2, ?_,
    fun b _ => Or.inl (by omega), fun hne => ?_⟩
  · have := rep_interval (dcWord := C.dcWord) (acWord := C.acWord) (blocks := iv)
      (r := (tailOf C k trailer ivs).2) t0 t1 t2 t.io.bs hb hm
    rw [scanBytes_tail] at hrd
    rw [← hrd] at this
    exact this
  · obtain ⟨hn, hr⟩ := hn hne
    cases ivs with
    | nil => exact absurd rfl hne
    | cons iv' ivs =>
      obtain ⟨g1, g2, g3, g4, g5⟩ := h
      refine ⟨by omega, by rw [hr]; exact g5, ?_, g4⟩
      have : iv.length ≠ 0 := by simpa using g1
      omega

theorem countDown_more {t : T} (h : 1 < t.dec.todo) :
    countDown t = (.ok (), { t with dec := { t.dec with todo := t.dec.todo - 1 } }) := by
  unfold countDown wrappingPred
  dsimp only
  rw [if_neg (by omega : ¬ t.dec.todo = 0), if_neg (by omega : ¬ t.dec.todo - 1 = 0)]

theorem countDown_last {t : T} (h : t.dec.todo = 1) :
    countDown t = handleRst { t with dec := { t.dec with todo := 0 } } := by
  unfold countDown wrappingPred
  dsimp only
  rw [h, if_neg (by omega : ¬ (1 : Nat) = 0), if_pos (by omega)]

/-- Counting without a restart marker. -/
theorem countDown_quiet {t : T}
    (hm : t.dec.todo = 1 → t.io.bs.marker = none ∨ t.io.bs.marker = some .eoi) :
    ∃ n, countDown t = (.ok (), { t with dec := { t.dec with todo := n } }) ∧
      (0 < t.dec.todo → n = if t.dec.todo = 1 then t.dec.restartInterval else t.dec.todo - 1) := by
  by_cases h1 : t.dec.todo = 1
  · refine ⟨t.dec.restartInterval, ?_, fun _ => by rw [if_pos h1]⟩
    rw [countDown_last h1]
    unfold handleRst
    dsimp only
    rcases hm h1 with h | h <;> rw [h]
  · refine ⟨wrappingPred t.dec.todo, ?_, fun h0 => ?_⟩
    · unfold countDown
      dsimp only
      rw [if_neg]
      unfold wrappingPred
      split
      · decide
      · omega
    · unfold wrappingPred
      rw [if_neg (by omega), if_neg h1]

/-- One MCU, given what the block decoder and the restart counter do. -/
theorem gray_mcu {dc ac : HuffmanTable} (hf : GrayFrame d c dc ac) {s : Scan} (hs : s.isHv = false)
    {j : Nat} {buf blk : List I16} (hj : j * 64 + 64 ≤ buf.length) {t t' : T} {p q : I32} {todo : Nat}
    {io : B} (hdec : t.dec = grayDec d c p todo)
    (hblk : decodeMcuBlock dc ac ((buf.drop (j * 64)).take 64) p t.io = (.ok blk, q, io))
    (hcd : countDown { t with dec := grayDec d c q todo, io := io } = (.ok (), t'))
    (hm : t'.io.bs.marker = none ∨ t'.io.bs.marker = some .eoi ∨ ∃ i, t'.io.bs.marker = some (.rst i)) :
    decodeMcu s 0 j [0] [buf, [], []] t = (.ok [writeAt buf (j * 64) blk, [], []], t') := by
  have hcomp : t.dec.components = [{ c with dcPred := p }] := by rw [hdec]; rfl
  have hstart : blockStart s { c with dcPred := p } 0 j 0 0 = j * 64 := by
    unfold blockStart
    simp only [hf.h1, hs]
    simp
  have hdb : decodeBlock dc ac 0 ((buf.drop (j * 64)).take 64) t =
      (.ok blk, { t with dec := grayDec d c q todo, io := io }) := by
    unfold decodeBlock
    rw [hcomp]
    simp only [List.getElem?_cons_zero, hblk]
    rw [hdec]
    rfl
  have hsam : decodeSample s 0 j 0 dc ac { c with dcPred := p } [buf, [], []] (0, 0) t =
      (.ok [writeAt buf (j * 64) blk, [], []], { t with dec := grayDec d c q todo, io := io }) := by
    unfold decodeSample
    rw [M.bind_ok (M.get_apply t), if_pos (by omega)]
    have hu : M.unwrap [buf, [], []][0]? t = (.ok buf, t) := rfl
    dsimp only
    rw [hstart, M.bind_ok hu, if_pos hj, M.bind_ok hdb]
    rfl
  have hcmp : decodeComponent s 0 j [buf, [], []] 0 t =
      (.ok [writeAt buf (j * 64) blk, [], []], { t with dec := grayDec d c q todo, io := io }) := by
    unfold decodeComponent
    rw [M.bind_ok (M.get_apply t)]
    have h1 : M.idx t.dec.components 0 t = (.ok { c with dcPred := p }, t) := by
      rw [hcomp]; rfl
    have h2 : M.idx t.dec.dcTables (c.dcHuffTable &&& 3) t = (.ok (some dc), t) :=
      M.idx_some (by rw [hdec]; exact hf.dcTab) t
    have h3 : M.idx t.dec.acTables (c.acHuffTable &&& 3) t = (.ok (some ac), t) :=
      M.idx_some (by rw [hdec]; exact hf.acTab) t
    have h4 : M.okOr (some dc) .huffmanDecode t = (.ok dc, t) := rfl
    have h5 : M.okOr (some ac) .huffmanDecode t = (.ok ac, t) := rfl
    rw [M.bind_ok h1, M.bind_ok h2, M.bind_ok h4, M.bind_ok h3, M.bind_ok h5]
    dsimp only
    have hp : samplePairs c.verticalSample c.horizontalSample = [(0, 0)] := by
      rw [hf.v1, hf.h1]
      rfl
    rw [hp, M.foldM]
    have := M.bind_ok (f := fun b' => M.foldM [] b' (decodeSample s 0 j 0 dc ac { c with dcPred := p })) hsam
    exact this
  rw [decodeMcu, M.bind_ok hcmp, M.bind_ok hcd, M.bind_ok (M.get_apply t')]
  rcases hm with hm | hm | ⟨i, hm⟩ <;> rw [hm] <;> rfl

/-- One MCU of a coded scan. -/
theorem gray_step {dc ac : HuffmanTable} (hf : GrayFrame d c dc ac) (ht : Tables C dc ac) {s : Scan}
    (hs : s.isHv = false) {j : Nat} {buf : List I16} (hj : j * 64 + 64 ≤ buf.length)
    (hz : (buf.drop (j * 64)).take 64 = List.replicate 64 0)
    {k : Nat} {b : List Int} {cur : List (List Int)} {rest : List (List (List Int))} {t : T}
    {p : Int} {todo : Nat} {pad : List Bool} (h : GrayAt d c C trailer k (b :: cur) rest t p todo pad) :
    ∃ t', decodeMcu s 0 j [0] [buf, [], []] t =
        (.ok [writeAt buf (j * 64) (coded b), [], []], t') ∧ t'.jobs = t.jobs ∧
      (∃ q todo', t'.dec = grayDec d c q todo') ∧
      (cur ≠ [] → ∃ todo', GrayAt d c C trailer k cur rest t' (dcOfBlock b) todo' pad) ∧
      ∀ iv ivs, cur = [] → rest = iv :: ivs →
        ∃ p' todo' pad', GrayAt d c C trailer (k + 1) iv ivs t' p' todo' pad' := by
  obtain ⟨hb, hfol, hbs⟩ := h.blocks
  have hrep := h.rep
  rw [blocksBits, List.append_assoc] at hrep
  obtain ⟨io, e1, r1, l1⟩ := block_coded ht hb hrep (h.ready b rfl)
  have hblk : decodeMcuBlock dc ac ((buf.drop (j * 64)).take 64) (BitVec.ofInt 32 p) t.io =
      (.ok (coded b), BitVec.ofInt 32 (dcOfBlock b), io) := by rw [hz]; exact e1
  -- the marker that the reader has found, if any
  have hmk : io.bs.marker = none ∨ (io.bs.marker = some .eoi ∧ rest = []) ∨
      ∃ i, io.bs.marker = some (.rst i) ∧ rest ≠ [] := by
    rcases hm : io.bs.marker with _ | mk
    · exact Or.inl rfl
    · right
      obtain ⟨hm1, -⟩ := marker_only r1 hm
      cases rest with
      | nil =>
        left
        have : Marker.fromU8 0xD9 = some mk := hm1
        rw [show Marker.fromU8 0xD9 = some .eoi by decide] at this
        exact ⟨this.symm, rfl⟩
      | cons iv ivs =>
        right
        obtain ⟨i, hi⟩ := rst_marker k
        have : Marker.fromU8 (UInt8.ofNat (0xD0 + k % 8)) = some mk := hm1
        rw [hi] at this
        exact ⟨i, this.symm, by simp⟩
  have hmk' : io.bs.marker = none ∨ io.bs.marker = some .eoi ∨ ∃ i, io.bs.marker = some (.rst i) := by
    rcases hmk with h | ⟨h, -⟩ | ⟨i, h, -⟩
    · exact Or.inl h
    · exact Or.inr (Or.inl h)
    · exact Or.inr (Or.inr ⟨i, h⟩)
  have hready : ∀ b' ∈ cur.head?, Ready io (dcCode C.dcWord (dcOfBlock b' - dcOfBlock b)).length := by
    intro b' hb'
    obtain ⟨bs, rfl⟩ : ∃ bs, cur = b' :: bs := by
      cases cur with
      | nil => simp at hb'
      | cons x xs => simp at hb'; exact ⟨xs, by rw [hb']⟩
    rw [blocksBits, blockBits, List.append_assoc, List.append_assoc] at r1
    exact ready_next (hfol b' rfl) l1 r1
  by_cases hr : rest = []
  · -- the last interval: the counter does not matter
    obtain ⟨n, hcd, -⟩ := countDown_quiet
      (t := { t with dec := grayDec d c (BitVec.ofInt 32 (dcOfBlock b)) todo, io := io }) (fun _ => by
        rcases hmk with h | ⟨h, -⟩ | ⟨i, -, hne⟩
        · exact Or.inl h
        · exact Or.inr h
        · exact absurd hr hne)
    refine ⟨_, gray_mcu hf hs hj h.dec hblk hcd hmk', rfl, ⟨_, n, rfl⟩, fun _ => ⟨n, ?_⟩, ?_⟩
    · exact ⟨rfl, h.padLen, hbs, r1, hready, fun hne => absurd hr hne⟩
    · intro iv ivs _ hcon
      rw [hr] at hcon
      cases hcon
  have htodo : todo = cur.length + 1 := (h.more hr).1
  by_cases h1 : todo = 1
  · -- the counter reaches zero
    have hcur : cur = [] := List.eq_nil_of_length_eq_zero (by omega)
    subst hcur
    subst h1
    have hcd := countDown_last (t := { t with dec := grayDec d c (BitVec.ofInt 32 (dcOfBlock b)) 1, io := io }) rfl
    obtain ⟨m1, m2, m3, m4⟩ := h.more hr
    obtain ⟨iv, ivs, rfl⟩ : ∃ iv ivs, rest = iv :: ivs := by
      cases rest with
      | nil => exact absurd rfl hr
      | cons iv ivs => exact ⟨iv, ivs, rfl⟩
    have r1' : Rep io pad (some (tailOf C k trailer (iv :: ivs))) := by
      simpa only [blocksBits, List.nil_append] using r1
    obtain ⟨mk, f1, f2, f3⟩ := marker_found r1' h.padLen l1 (m4 b rfl)
    obtain ⟨i, hi⟩ := rst_marker k
    have : Marker.fromU8 (UInt8.ofNat (0xD0 + k % 8)) = some mk := f2
    rw [hi] at this
    cases this
    have hh : countDown { t with dec := grayDec d c (BitVec.ofInt 32 (dcOfBlock b)) 1, io := io } =
        (.ok (), { t with
          dec := grayDec d c 0 d.restartInterval
          io := { io with bs := io.bs.reset } }) := by
      rw [hcd]
      unfold handleRst
      dsimp only
      rw [f1]
      rfl
    refine ⟨_, gray_mcu hf hs hj h.dec hblk hh (Or.inl rfl), rfl, ⟨_, _, rfl⟩,
      fun hc => absurd rfl hc, ?_⟩
    rintro iv' ivs' - hcon
    cases hcon
    exact ⟨_, _, _, grayAt_start (k := k + 1) m2 rfl (fun _ => ⟨rfl, rfl⟩) rfl rfl f3⟩
  · have hcd := countDown_more (t := { t with dec := grayDec d c (BitVec.ofInt 32 (dcOfBlock b)) todo, io := io })
      (show 1 < todo by omega)
    refine ⟨_, gray_mcu hf hs hj h.dec hblk hcd hmk', rfl, ⟨_, _, rfl⟩, fun hc => ⟨todo - 1, ?_⟩, ?_⟩
    · refine ⟨rfl, h.padLen, hbs, r1, hready, fun _ => ?_⟩
      obtain ⟨m1, m2, m3, m4⟩ := h.more hr
      refine ⟨by omega, m2, m3, fun x hx => m4 x ?_⟩
      rw [List.getLast?_cons]
      have : cur.getLast? = some x := hx
      rw [this]
      rfl
    · intro iv ivs hc _
      rw [hc] at htodo
      exact absurd htodo h1

variable (d c C trailer) in
/-- The blocks that are still to be decoded. -/
def GrayRem (blocks : List (List Int)) (t : T) : Prop :=
  (∃ q todo, t.dec = grayDec d c q todo) ∧
  (blocks ≠ [] → ∃ k cur rest p todo pad, cur ≠ [] ∧ blocks = cur ++ rest.flatten ∧
    GrayAt d c C trailer k cur rest t p todo pad)

theorem gray_rem_step {dc ac : HuffmanTable} (hf : GrayFrame d c dc ac) (ht : Tables C dc ac)
    {s : Scan} (hs : s.isHv = false) {j : Nat} {buf : List I16} (hj : j * 64 + 64 ≤ buf.length)
    (hz : (buf.drop (j * 64)).take 64 = List.replicate 64 0) {b : List Int} {bs : List (List Int)}
    {t : T} (h : GrayRem d c C trailer (b :: bs) t) :
    ∃ t', decodeMcu s 0 j [0] [buf, [], []] t =
        (.ok [writeAt buf (j * 64) (coded b), [], []], t') ∧ t'.jobs = t.jobs ∧
      GrayRem d c C trailer bs t' := by
  obtain ⟨k, cur, rest, p, todo, pad, hc, he, hat⟩ := h.2 (by simp)
  obtain ⟨b', cur, rfl⟩ : ∃ b' cur', cur = b' :: cur' := by
    cases cur with
    | nil => exact absurd rfl hc
    | cons x xs => exact ⟨x, xs, rfl⟩
  rw [List.cons_append] at he
  injection he with hb hbs
  subst hb
  obtain ⟨t', e1, e2, e3, e4, e5⟩ := gray_step hf ht hs hj hz hat
  refine ⟨t', e1, e2, e3, fun hne => ?_⟩
  by_cases hcur : cur = []
  · subst hcur
    cases rest with
    | nil => exact absurd (by simpa using hbs) hne
    | cons iv ivs =>
      obtain ⟨p', todo', pad', hat'⟩ := e5 iv ivs rfl rfl
      obtain ⟨-, m2, -, -⟩ := hat.more (by simp)
      exact ⟨_, iv, ivs, _, _, _, (intervals_head m2).1, by simpa using hbs, hat'⟩
  · obtain ⟨todo', e4⟩ := e4 hcur
    exact ⟨_, cur, rest, _, _, _, hcur, hbs, e4⟩

theorem gray_comps {t : T} {dc ac : HuffmanTable} (hf : GrayFrame d c dc ac)
    (h : ∃ q todo, t.dec = grayDec d c q todo) :
    List.range t.dec.inputColorspace.numComponents = [0] := by
  obtain ⟨q, todo, h⟩ := h
  have : t.dec.inputColorspace = .grayscale := by rw [h]; exact hf.inCs
  rw [this]
  rfl

theorem gray_fold {dc ac : HuffmanTable} (hf : GrayFrame d c dc ac) (ht : Tables C dc ac)
    {s : Scan} (hs : s.isHv = false) (more : List (List Int)) :
    ∀ (bs : List (List Int)) (j : Nat) (pre : List I16) (t : T), pre.length = j * 64 →
      GrayRem d c C trailer (bs ++ more) t →
      ∃ t', M.foldM ((List.range' j bs.length).map fun b => (0, b))
          [pre ++ List.replicate (bs.length * 64) 0, [], []]
          (fun temp (vj : Nat × Nat) => M.get >>= fun t : T =>
            decodeMcu s vj.1 vj.2 (List.range t.dec.inputColorspace.numComponents) temp) t =
          (.ok [pre ++ (bs.map coded).flatten, [], []], t') ∧ t'.jobs = t.jobs ∧
        GrayRem d c C trailer more t'
  | [], j, pre, t, hp, h => ⟨t, rfl, rfl, h⟩
  | b :: bs, j, pre, t, hp, h => by
    have hlen : (pre ++ List.replicate ((bs.length + 1) * 64) (0 : I16)).length =
        j * 64 + (bs.length + 1) * 64 := by rw [List.length_append, hp, List.length_replicate]
    have hdrop : (pre ++ List.replicate ((bs.length + 1) * 64) (0 : I16)).drop (j * 64) =
        List.replicate ((bs.length + 1) * 64) 0 := by rw [← hp, List.drop_left]
    obtain ⟨t1, e1, e2, e3⟩ := gray_rem_step hf ht hs (j := j)
      (buf := pre ++ List.replicate ((bs.length + 1) * 64) 0) (by omega)
      (by rw [hdrop, List.take_replicate]; congr 1; omega) h
    have hw : writeAt (pre ++ List.replicate ((bs.length + 1) * 64) 0) (j * 64) (coded b) =
        (pre ++ coded b) ++ List.replicate (bs.length * 64) 0 := by
      unfold writeAt
      rw [coded_length, ← List.drop_drop, hdrop, ← hp, List.take_left, List.drop_replicate]
      congr 2
      omega
    rw [hw] at e1
    obtain ⟨t2, f1, f2, f3⟩ := gray_fold hf ht hs more bs (j + 1) (pre ++ coded b) t1
      (by rw [List.length_append, hp, coded_length]; omega) e3
    refine ⟨t2, ?_, by rw [f2, e2], f3⟩
    rw [List.length_cons, List.range'_succ, List.map_cons, M.foldM]
    have hstep : (M.get >>= fun t : T => decodeMcu s 0 j
        (List.range t.dec.inputColorspace.numComponents)
        [pre ++ List.replicate ((bs.length + 1) * 64) 0, [], []]) t =
        (.ok [(pre ++ coded b) ++ List.replicate (bs.length * 64) 0, [], []], t1) := by
      rw [M.bind_ok (M.get_apply t), gray_comps hf h.1, e1]
    have := M.bind_ok (f := fun b' => M.foldM ((List.range' (j + 1) bs.length).map fun b => (0, b)) b'
      (fun temp (vj : Nat × Nat) => M.get >>= fun t : T =>
            decodeMcu s vj.1 vj.2 (List.range t.dec.inputColorspace.numComponents) temp)) hstep
    refine this.trans (f1.trans ?_)
    rw [List.map_cons, List.flatten_cons, List.append_assoc]

/-- The coefficients of a row of blocks. -/
def codedRow (row : List (List Int)) : List I16 := (row.map coded).flatten

/-- The job for a row of blocks. -/
def grayJob (s : Scan) (row : List (List Int)) : Out (List UInt8) :=
  postProcess s.idct s.color s.comps s.inCs s.outCs s.width [codedRow row, [], []]
    (List.replicate s.chunk 0)

theorem gray_strip {dc ac : HuffmanTable} (hf : GrayFrame d c dc ac) (ht : Tables C dc ac)
    {s : Scan} (hs : s.isHv = false) (hb : s.bias = 1) {row : List (List Int)}
    {more : List (List Int)} (hrow : row.length = s.mcuWidth) {t : T}
    (hj : t.jobs.length < s.outLen / s.chunk) (h : GrayRem d c C trailer (row ++ more) t) :
    ∃ t', strip s t = (.ok (), t') ∧ t'.jobs = t.jobs ++ [grayJob s row] ∧
      GrayRem d c C trailer more t' := by
  obtain ⟨q, todo, hdec⟩ := h.1
  have halloc : allocTemp s t.dec = .ok [List.replicate (row.length * 64) 0, [], []] := by
    unfold allocTemp
    have h1 : t.dec.options.getOutColorspace = .grayscale := by rw [hdec]; exact hf.outCs
    have h2 : t.dec.components = [{ c with dcPred := q }] := by rw [hdec]; rfl
    rw [h1, h2]
    dsimp only
    rw [if_neg (fun hc => absurd hc.1 (by decide))]
    show Out.ok [List.replicate (s.mcuWidth * 64 * c.verticalSample * c.horizontalSample * s.bias) 0,
      _, _] = _
    rw [hf.v1, hf.h1, hb, ← hrow, Nat.mul_one, Nat.mul_one, Nat.mul_one]
    rfl
  have ha : M.ofOut (allocTemp s t.dec) t = (.ok [List.replicate (row.length * 64) 0, [], []], t) := by
    rw [halloc]; rfl
  obtain ⟨t1, e1, e2, e3⟩ := gray_fold hf ht hs more row 0 [] t rfl h
  have hd : decodeStrip s [List.replicate (row.length * 64) 0, [], []] t =
      (.ok [codedRow row, [], []], t1) := by
    have hp : samplePairs s.bias s.mcuWidth = (List.range' 0 row.length).map fun b => (0, b) := by
      rw [hb, ← hrow, ← List.range_eq_range']
      unfold samplePairs
      rw [show List.range 1 = [0] from rfl]
      simp
    unfold decodeStrip
    rw [hp]
    exact e1
  have hsub : submit s [codedRow row, [], []] t1 =
      (.ok (), { t1 with jobs := t1.jobs ++ [grayJob s row] }) := by
    unfold submit
    rw [if_pos (by rw [e2]; exact hj)]
    rfl
  refine ⟨{ t1 with jobs := t1.jobs ++ [grayJob s row] }, ?_, by rw [← e2], ?_⟩
  · unfold strip
    rw [M.bind_ok (M.get_apply t), M.bind_ok ha, M.bind_ok hd, hsub]
  · obtain ⟨g1, g2⟩ := e3
    refine ⟨g1, fun hne => ?_⟩
    obtain ⟨k, cur, rest, p, td, pad, x1, x2, x3⟩ := g2 hne
    exact ⟨k, cur, rest, p, td, pad, x1, x2, ⟨x3.dec, x3.padLen, x3.blocks, x3.rep, x3.ready, x3.more⟩⟩

theorem gray_strips {dc ac : HuffmanTable} (hf : GrayFrame d c dc ac) (ht : Tables C dc ac)
    {s : Scan} (hs : s.isHv = false) (hb : s.bias = 1) :
    ∀ (rows : List (List (List Int))) (t : T), (∀ row ∈ rows, row.length = s.mcuWidth) →
      t.jobs.length + rows.length ≤ s.outLen / s.chunk → GrayRem d c C trailer rows.flatten t →
      ∃ t', strips s rows.length t = (.ok (), t') ∧ t'.jobs = t.jobs ++ rows.map (grayJob s) ∧
        ∃ q todo, t'.dec = grayDec d c q todo
  | [], t, _, _, h => ⟨t, rfl, by simp, h.1⟩
  | row :: rows, t, hrow, hj, h => by
    rw [List.length_cons] at hj
    obtain ⟨t1, e1, e2, e3⟩ := gray_strip hf ht hs hb (t := t) (hrow row (by simp)) (by omega)
      (more := rows.flatten) (by simpa using h)
    obtain ⟨t2, f1, f2, f3⟩ := gray_strips hf ht hs hb rows t1 (fun r hr => hrow r (by simp [hr]))
      (by rw [e2, List.length_append, List.length_singleton]; omega) e3
    refine ⟨t2, ?_, by rw [f2, e2]; simp, f3⟩
    rw [List.length_cons, strips, M.bind_ok e1, f1]

end

end Zune
