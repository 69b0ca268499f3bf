import Verif.Props.ProgColour
/-!
# Restart intervals of colour images

C22 for images with three components.
-/

namespace Zune
open Spec

/-- Two files for the same image: same size, factors, quantisation tables and blocks. Codes, restart
intervals, bytes after the last block and after EOI may differ. -/
structure Spec.SameImage (g g' : ColourJpeg) : Prop where
  width : g'.width = g.width
  height : g'.height = g.height
  fh : g'.fh = g.fh
  fv : g'.fv = g.fv
  quantY : g'.quantY = g.quantY
  quantC : g'.quantC = g.quantC
  blocks : ∀ k i a b, k < mcuRows g.height g.fv * mcuCols g.width g.fh → i < 3 →
    a < (if i = 0 then g.fv else 1) → b < (if i = 0 then g.fh else 1) →
    g'.blocks k i a b = g.blocks k i a b

/-- **C22 (partial).** For images with three components: with whatever restart intervals, and whatever codes,
the image is the same, for every format of the output. So each restart resets all predictions and the bit
reader, and nothing else does. Missing: intervals whose last `r` components of MCUs (of the `3 * r` they
have) take less than 64 bits, `r` being the restart interval; `c22_false` is such an image. `c22_encoder`
gives a coding for which no interval of six or more MCUs is of that kind. -/
theorem c22_colour_partial {g g' : ColourJpeg} (V : g.Valid) (V' : g'.Valid) (S : SameImage g g') (cpu : Cpu)
    (o : Options) (hw : g.width ≤ o.getMaxWidth) (hh : g.height ≤ o.getMaxHeight) :
    ((Decoder.newWithOptions cpu o).decodeBuffer g'.bytes).1 =
      ((Decoder.newWithOptions cpu o).decodeBuffer g.bytes).1 := by
  obtain ⟨oc, hoc⟩ : ∃ oc, o.getOutColorspace = oc := ⟨_, rfl⟩
  obtain ⟨d, c0, c1, c2, full, R, hq, K, hj⟩ := baseline_jobs V cpu o hw hh hoc
  obtain ⟨d', e0, e1, e2, full', R', hq', K', hj'⟩ := baseline_jobs V' cpu o (by rw [S.width]; exact hw)
    (by rw [S.height]; exact hh) hoc
  rw [S.width, S.height, S.fh, S.fv] at R' hj'
  have hqe : ∀ i, naturalQuant (g'.quantOf i) = naturalQuant (g.quantOf i) := by
    intro i
    unfold ColourJpeg.quantOf
    rw [S.quantY, S.quantC]
  refine colourJobs_unique R' R K' K rfl ?_ (fun i c e => (hq' i c e).trans (hqe i)) hq ?_ hj' hj
  · cases oc <;> decide
  · intro i r k hi h1 h2
    have hs : (colourShape g.fh g.fv i).1 = (if i = 0 then g.fv else 1) ∧
        (colourShape g.fh g.fv i).2 = (if i = 0 then g.fh else 1) := by
      unfold colourShape
      split <;> exact ⟨rfl, rfl⟩
    have p1 : 0 < (colourShape g.fh g.fv i).1 := by
      rw [hs.1]; have := V.fv; split <;> omega
    have p2 : 0 < (colourShape g.fh g.fv i).2 := by
      rw [hs.2]; have := V.fh; split <;> omega
    refine S.blocks _ _ _ _ ?_ hi (by rw [← hs.1]; exact Nat.mod_lt _ p1) (by rw [← hs.2]; exact Nat.mod_lt _ p2)
    have a1 : r / (colourShape g.fh g.fv i).1 < mcuRows g.height g.fv := (Nat.div_lt_iff_lt_mul p1).2 (by
      rw [Nat.mul_comm]; exact h1)
    have a2 : k / (colourShape g.fh g.fv i).2 < mcuCols g.width g.fh := (Nat.div_lt_iff_lt_mul p2).2 (by
      rw [Nat.mul_comm]; exact h2)
    calc _ < r / (colourShape g.fh g.fv i).1 * mcuCols g.width g.fh + mcuCols g.width g.fh := by omega
      _ = (r / (colourShape g.fh g.fv i).1 + 1) * mcuCols g.width g.fh := by ring
      _ ≤ _ := Nat.mul_le_mul_right _ a1

/-! ### The encoder with restart intervals -/

/-- The file for the blocks `m` with a restart after every `r` MCUs. -/
def Spec.encodeRestart (r w h fh fv : Nat) (quantY quantC : List UInt8)
    (m : Nat → Nat → Nat → Nat → List Int) : ColourJpeg :=
  { encodeColour w h fh fv quantY quantC m with restart := r }

section
variable {r w h fh fv : Nat} {quantY quantC : List UInt8} {m : Nat → Nat → Nat → Nat → List Int}

/-- A block has a DC code and at least one AC code. -/
theorem encodeColour_block {p : Int} {i : Nat} {b : List Int} (hb : Codable b) :
    12 ≤ (blockBits ((encodeColour w h fh fv quantY quantC m).codes i).dcWord
      ((encodeColour w h fh fv quantY quantC m).codes i).acWord p b).length := by
  rw [encodeColour_codes]
  unfold blockBits
  rw [List.length_append]
  have h1 : 4 ≤ (dcCode (encodeGray 1 1 0 [] []).codes.dcWord (dcOfBlock b - p)).length := by
    show 4 ≤ (natBits 4 _ ++ magnitudeBits _).length
    rw [List.length_append, natBits_length]
    omega
  have h2 : 8 ≤ (symbolBits (encodeGray 1 1 0 [] []).codes.acWord (acSymbols 0 b.tail)).length := by
    have hne : acSymbols 0 b.tail ≠ [] := acSymbols_ne_nil (Or.inr (by
      intro e
      have := congrArg List.length e
      rw [List.length_tail, hb.len] at this
      simp at this))
    revert hne
    generalize acSymbols 0 b.tail = l
    cases l with
    | nil => intro h; exact absurd rfl h
    | cons q qs =>
      intro _
      unfold symbolBits
      rw [List.flatMap_cons, List.length_append]
      show 8 ≤ (natBits 8 _ ++ _).length + _
      rw [List.length_append, natBits_length]
      omega
  omega

theorem encodeColour_bits (us : List DataUnit) (p : Nat → Int) (hu : ∀ u ∈ us, Codable u.2) :
    12 * us.length ≤ (unitsBits (encodeColour w h fh fv quantY quantC m).codes p us).length := by
  induction us generalizing p with
  | nil => exact Nat.zero_le _
  | cons u us ih =>
    have h1 := encodeColour_block (w := w) (h := h) (fh := fh) (fv := fv) (quantY := quantY) (quantC := quantC)
      (m := m) (p := p u.1) (i := u.1) (hu u List.mem_cons_self)
    have h2 := ih (putPred p u.1 (dcOfBlock u.2)) fun v hv => hu v (List.mem_cons_of_mem _ hv)
    unfold unitsBits
    rw [List.length_append, List.length_cons]
    omega

theorem groupsUnits_count {n : Nat} {f : Nat → Nat × Nat} (hf : ∀ i, 0 < (f i).1 ∧ 0 < (f i).2) (v c : Nat) :
    c ≤ (groupsUnits n f m v c).length := by
  unfold groupsUnits
  rw [List.length_flatMap]
  have h1 : ∀ q, 1 ≤ (groupUnits n f m q).length := by
    intro q
    obtain ⟨a, b⟩ := hf (q % n)
    unfold groupUnits
    rw [List.length_flatMap]
    simp only [List.length_map, List.length_range]
    rw [List.map_const', List.sum_replicate, List.length_range]
    exact Nat.mul_pos a b
  have := List.sum_le_sum (l := List.range' v c) (f := fun _ => 1) (g := fun q => (groupUnits n f m q).length)
    fun q _ => h1 q
  rw [List.map_const', List.sum_replicate, List.length_range'] at this
  simpa using this

theorem mem_groupsUnits {n : Nat} {f : Nat → Nat × Nat} {v c : Nat}
    {u : DataUnit} (h : u ∈ groupsUnits n f m v c) : ∃ k i a b, u = (i, m k i a b) := by
  unfold groupsUnits groupUnits at h
  simp only [List.mem_flatMap, List.mem_map] at h
  obtain ⟨k, -, a, -, b, -, rfl⟩ := h
  exact ⟨_, _, a, b, rfl⟩

theorem encodeColour_leaves (h3 : 0 < fh) (h4 : 0 < fv) (hr : 6 ≤ r) (hm : ∀ k i a b, Codable (m k i a b))
    (k : Nat) :
    Leaves (encodeColour w h fh fv quantY quantC m).codes 3 (colourShape fh fv) m k r := by
  constructor
  · intro us u hu
    obtain ⟨k', i, a, b, rfl⟩ := mem_mcusUnits (u := u) (h := (by rw [hu]; simp))
    rw [encodeColour_codes]
    refine codable_end (w := 1) (h := 1) (restart := 0) (quant := []) (blocks := []) (hm k' i a b)
      (acSymbols_ne_nil (Or.inr ?_))
    intro e
    have := congrArg List.length e
    rw [List.length_tail, (hm k' i a b).len] at this
    simp at this
  · have h1 := encodeColour_bits (w := w) (h := h) (fh := fh) (fv := fv) (quantY := quantY) (quantC := quantC)
      (m := m) (groupsUnits 3 (colourShape fh fv) m (3 * k + (3 * r - r)) r)
      (predsAfter (fun _ => 0) (groupsUnits 3 (colourShape fh fv) m (3 * k) (3 * r - r))) (by
        intro u hu
        obtain ⟨k', i, a, b, rfl⟩ := mem_groupsUnits hu
        exact hm k' i a b)
    have h2 := groupsUnits_count (n := 3) (m := m) (f := colourShape fh fv) (by
      intro i
      unfold colourShape
      split
      · exact ⟨h4, h3⟩
      · exact ⟨Nat.one_pos, Nat.one_pos⟩) (3 * k + (3 * r - r)) r
    omega

/-- All coefficient data can be coded with all restart intervals of six or more MCUs. -/
theorem encodeRestart_valid
    (h1 : 0 < w ∧ w ≤ 65527) (h2 : 0 < h ∧ h ≤ 65527) (h3 : 0 < fh ∧ fh ≤ 2) (h4 : 0 < fv ∧ fv ≤ 2)
    (h5 : fv = 1 ∨ 7 * w ≤ 136 * h + 64) (hY : quantY.length = 64) (hC : quantC.length = 64)
    (hr : 6 ≤ r ∧ r < 65536)
    (hm : ∀ k i a b, Codable (m k i a b)) : (encodeRestart r w h fh fv quantY quantC m).Valid := by
  have V := encodeColour_valid h1 h2 h3 h4 h5 hY hC hm
  exact
  { w0 := V.w0
    h0 := V.h0
    wLe := V.wLe
    hLe := V.hLe
    fh := V.fh
    fv := V.fv
    fit := V.fit
    quantY := V.quantY
    quantC := V.quantC
    dcY := V.dcY
    acY := V.acY
    dcC := V.dcC
    acC := V.acC
    restart := hr.2
    data := by
      refine intervalsOk_all (C := (encodeColour w h fh fv quantY quantC m).codes) (r := r)
        (fun k c => encodeColour_units _ _ (fun i => by decide) fun u hu => ?_)
        (fun k c => enough_of_fill (by show 8 ≤ (List.replicate 8 _).length; simp))
        (fun _ => encodeColour_leaves h3.1 h4.1 hr.1 hm) _ _ (intervalCounts_reg _ _)
      obtain ⟨k, i, a, b, rfl⟩ := mem_mcusUnits hu
      exact hm k i a b }

/-- **C22 for all coefficient data and restart intervals** (of six or more MCUs): with the codes of the
encoder the file with restart intervals decodes to the same as the one without, for every format of the
output. -/
theorem c22_encoder
    (h1 : 0 < w ∧ w ≤ 65527) (h2 : 0 < h ∧ h ≤ 65527) (h3 : 0 < fh ∧ fh ≤ 2) (h4 : 0 < fv ∧ fv ≤ 2)
    (h5 : fv = 1 ∨ 7 * w ≤ 136 * h + 64) (hY : quantY.length = 64) (hC : quantC.length = 64)
    (hr : 6 ≤ r ∧ r < 65536) (hm : ∀ k i a b, Codable (m k i a b)) (cpu : Cpu)
    (o : Options) (hw : w ≤ o.getMaxWidth) (hh : h ≤ o.getMaxHeight) :
    ((Decoder.newWithOptions cpu o).decodeBuffer (encodeRestart r w h fh fv quantY quantC m).bytes).1 =
      ((Decoder.newWithOptions cpu o).decodeBuffer (encodeColour w h fh fv quantY quantC m).bytes).1 :=
  c22_colour_partial (encodeColour_valid h1 h2 h3 h4 h5 hY hC hm) (encodeRestart_valid h1 h2 h3 h4 h5 hY hC hr hm)
    ⟨rfl, rfl, rfl, rfl, rfl, rfl, fun _ _ _ _ _ _ _ _ => rfl⟩ cpu o hw hh

end

/-- The blocks of a sample. -/
def restartBlocks (k i a b : Nat) : List Int :=
  ((k * 3 + i + a + b) % 7 : Nat) :: (if (k + i) % 2 = 0 then 1 else 0) :: List.replicate 62 0

/-- The hypotheses hold for an image of 60 x 50 pixels, 16 MCUs in three intervals. The file contains the
markers RST0 and RST1. -/
example (cpu : Cpu) (o : Options) (hw : 60 ≤ o.getMaxWidth) (hh : 50 ≤ o.getMaxHeight) :
    ((Decoder.newWithOptions cpu o).decodeBuffer
      (encodeRestart 6 60 50 2 2 (List.replicate 64 3) (List.replicate 64 5) restartBlocks).bytes).1 =
    ((Decoder.newWithOptions cpu o).decodeBuffer
      (encodeColour 60 50 2 2 (List.replicate 64 3) (List.replicate 64 5) restartBlocks).bytes).1 := by
  refine c22_encoder (by decide) (by decide) (by decide) (by decide) (by decide) (by decide) (by decide)
    (by decide) (fun k i a b => ?_) cpu o hw hh
  unfold restartBlocks
  refine ⟨by simp, ?_, ?_⟩
  · show (((k * 3 + i + a + b) % 7 : Nat) : Int).natAbs ≤ 2047
    omega
  · intro x hx
    rw [List.tail_cons, List.mem_cons, List.mem_replicate] at hx
    rcases hx with rfl | ⟨-, rfl⟩
    · split <;> decide
    · decide

example : let l := (encodeRestart 6 60 50 2 2 (List.replicate 64 3) (List.replicate 64 5) restartBlocks).data
    ((l.zip l.tail).filter fun p => decide (p.1 = 0xFF ∧ p.2 ≠ 0)) = [(0xFF, 0xD0), (0xFF, 0xD1)] := by
  decide +kernel

end Zune
