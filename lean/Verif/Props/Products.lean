import Verif.Props.ProgColour
import Verif.Props.ColourTrip
/-!
# Coefficients and quantisation

C69.
-/

namespace Zune
open Spec

/-- Two blocks, in the order in which they are coded, with the same products of coefficients and
quantisation steps. Steps are positive (T.81 B.2.4.1), coefficients fit into 16 bits. -/
structure Spec.SameProducts (q q' : List UInt8) (b b' : List Int) : Prop where
  pos : ∀ k, k < 64 → 0 < (q.getD k 0).toNat ∧ 0 < (q'.getD k 0).toNat
  small : ∀ k, k < 64 → -32768 ≤ b.getD k 0 ∧ b.getD k 0 < 32768 ∧ -32768 ≤ b'.getD k 0 ∧ b'.getD k 0 < 32768
  same : ∀ k, k < 64 → b.getD k 0 * (q.getD k 0).toNat = b'.getD k 0 * (q'.getD k 0).toNat

theorem mul_ofInt {n : Nat} {x y : Int} {p q : Nat} (h : x * p = y * q) :
    BitVec.ofInt n x * BitVec.ofNat n p = BitVec.ofInt n y * BitVec.ofNat n q := by
  have e : ∀ (z : Int) (r : Nat), BitVec.ofInt n z * BitVec.ofNat n r = BitVec.ofInt n (z * r) := by
    intro z r
    rw [BitVec.ofInt_mul, BitVec.ofInt_natCast]
  rw [e, e, h]

theorem signExtend_ofInt {x : Int} (h1 : -32768 ≤ x) (h2 : x < 32768) :
    (BitVec.ofInt 16 x).signExtend 32 = BitVec.ofInt 32 x := by
  apply BitVec.eq_of_toInt_eq
  rw [BitVec.toInt_signExtend_of_le (by decide), BitVec.toInt_ofInt, BitVec.toInt_ofInt]
  simp only [Int.bmod_def]
  omega

theorem ofInt_zero_iff {x : Int} (h1 : -32768 ≤ x) (h2 : x < 32768) : BitVec.ofInt 16 x = 0 ↔ x = 0 := by
  constructor
  · intro h
    have := congrArg BitVec.toInt h
    rw [BitVec.toInt_ofInt] at this
    simp only [Int.bmod_def] at this
    simp at this
    omega
  · rintro rfl
    rfl

/-- A block of coefficients in natural order. -/
structure BlockProducts (q q' : List Nat) (b b' : List Int) : Prop where
  lb : b.length = 64
  lb' : b'.length = 64
  lq : q.length = 64
  lq' : q'.length = 64
  pos : ∀ k, k < 64 → 0 < q.getD k 0 ∧ 0 < q'.getD k 0
  small : ∀ k, k < 64 → -32768 ≤ b.getD k 0 ∧ b.getD k 0 < 32768 ∧ -32768 ≤ b'.getD k 0 ∧ b'.getD k 0 < 32768
  same : ∀ k, k < 64 → b.getD k 0 * (q.getD k 0 : Nat) = b'.getD k 0 * (q'.getD k 0 : Nat)

theorem BlockProducts.zero {q q' : List Nat} {b b' : List Int} (P : BlockProducts q q' b b') {k : Nat}
    (hk : k < 64) : b.getD k 0 = 0 ↔ b'.getD k 0 = 0 := by
  obtain ⟨p1, p2⟩ := P.pos k hk
  have h := P.same k hk
  constructor
  · intro e
    rw [e, Int.zero_mul] at h
    rcases Int.mul_eq_zero.1 h.symm with e | e
    · exact e
    · omega
  · intro e
    rw [e, Int.zero_mul] at h
    rcases Int.mul_eq_zero.1 h with e | e
    · exact e
    · omega

theorem acZero_coded_iff {b : List Int} (hl : b.length = 64)
    (hs : ∀ k, k < 64 → -32768 ≤ b.getD k 0 ∧ b.getD k 0 < 32768) :
    acZero (b.map (BitVec.ofInt 16)) = true ↔ ∀ k, k < 64 → 0 < k → b.getD k 0 = 0 := by
  unfold acZero
  rw [List.all_eq_true]
  constructor
  · intro h k hk h0
    have hg : (b.map (BitVec.ofInt 16))[k]? = some (BitVec.ofInt 16 (b.getD k 0)) := by
      rw [List.getElem?_map, List.getD_eq_getElem?_getD, List.getElem?_eq_getElem (by omega)]
      rfl
    have hm : BitVec.ofInt 16 (b.getD k 0) ∈ (b.map (BitVec.ofInt 16)).drop 1 := by
      refine List.mem_of_getElem? (i := k - 1) ?_
      rw [List.getElem?_drop, show 1 + (k - 1) = k by omega, hg]
    have := h _ hm
    rw [beq_iff_eq] at this
    exact (ofInt_zero_iff (hs k hk).1 (hs k hk).2).1 this
  · intro h x hx
    obtain ⟨i, hi⟩ := List.mem_iff_getElem?.1 hx
    rw [List.getElem?_drop, List.getElem?_map] at hi
    obtain ⟨y, hy, rfl⟩ := Option.map_eq_some_iff.1 hi
    have hlt : 1 + i < 64 := by
      rw [← hl]
      exact (List.getElem?_eq_some_iff.1 hy).1
    have := h (1 + i) hlt (by omega)
    rw [List.getD_eq_getElem?_getD, hy] at this
    rw [show y = 0 from this]
    rfl

/-- The inverse transforms depend on the products only. -/
theorem BlockProducts.block {q q' : List Nat} {b b' : List Int} (P : BlockProducts q q' b b') (f : IdctFn) :
    f.block (b.map (BitVec.ofInt 16)) q = f.block (b'.map (BitVec.ofInt 16)) q' := by
  have hz : acZero (b.map (BitVec.ofInt 16)) = acZero (b'.map (BitVec.ofInt 16)) := by
    rw [Bool.eq_iff_iff, acZero_coded_iff P.lb fun k hk => ⟨(P.small k hk).1, (P.small k hk).2.1⟩,
      acZero_coded_iff P.lb' fun k hk => ⟨(P.small k hk).2.2.1, (P.small k hk).2.2.2⟩]
    exact ⟨fun h k hk h0 => (P.zero hk).1 (h k hk h0), fun h k hk h0 => (P.zero hk).2 (h k hk h0)⟩
  have hdc : dcValue (b.map (BitVec.ofInt 16)) q = dcValue (b'.map (BitVec.ofInt 16)) q' := by
    have e : ∀ l : List Int, l.length = 64 → (l.map (BitVec.ofInt 16)).getD 0 0 = BitVec.ofInt 16 (l.getD 0 0) := by
      intro l hl
      match l, hl with
      | x :: l, _ => rfl
    unfold dcValue
    rw [e b P.lb, e b' P.lb', mul_ofInt (P.same 0 (by omega))]
  have hdq : dequantize (b.map (BitVec.ofInt 16)) q = dequantize (b'.map (BitVec.ofInt 16)) q' := by
    unfold dequantize
    congr 1
    apply List.ext_getElem?
    intro k
    by_cases hk : k < 64
    · have e : ∀ (l : List Int) (r : List Nat), l.length = 64 → r.length = 64 → -32768 ≤ l.getD k 0 →
          l.getD k 0 < 32768 →
          (List.zipWith (fun (c : I16) q => c.signExtend 32 * BitVec.ofNat 32 q) (l.map (BitVec.ofInt 16)) r)[k]? =
            some (BitVec.ofInt 32 (l.getD k 0) * BitVec.ofNat 32 (r.getD k 0)) := by
        intro l r hl hr h1 h2
        rw [List.getElem?_zipWith, List.getElem?_map]
        rw [List.getD_eq_getElem?_getD, List.getElem?_eq_getElem (show k < l.length by omega), Option.getD_some] at *
        rw [List.getD_eq_getElem?_getD, List.getElem?_eq_getElem (show k < r.length by omega), Option.getD_some]
        dsimp only [Option.map_some]
        rw [signExtend_ofInt h1 h2]
      obtain ⟨s1, s2, s3, s4⟩ := P.small k hk
      rw [e b q P.lb P.lq s1 s2, e b' q' P.lb' P.lq' s3 s4, mul_ofInt (P.same k hk)]
    · have e : ∀ (l : List Int) (r : List Nat), l.length = 64 →
          (List.zipWith (fun (c : I16) q => c.signExtend 32 * BitVec.ofNat 32 q) (l.map (BitVec.ofInt 16)) r)[k]? =
            none := by
        intro l r hl
        rw [List.getElem?_eq_none]
        rw [List.length_zipWith, List.length_map]
        omega
      rw [e b q P.lb, e b' q' P.lb']
  cases f
  · show idctBlockScalar _ _ = idctBlockScalar _ _
    unfold idctBlockScalar
    rw [hz, hdc, hdq]
  · show idctBlockAvx _ _ = idctBlockAvx _ _
    unfold idctBlockAvx
    rw [hz, hdc, hdq]

/-- Blocks as they are coded. -/
theorem Spec.SameProducts.block {q q' : List UInt8} {b b' : List Int} (P : SameProducts q q' b b') (f : IdctFn) :
    f.block (coded b) (naturalQuant q) = f.block (coded b') (naturalQuant q') := by
  unfold coded
  refine BlockProducts.block ?_ f
  have hi : ∀ z, z < 64 → zigzag.idxOf z < 64 := by decide
  have e1 : ∀ (l : List Int) z, z < 64 → (naturalOrder l).getD z 0 = l.getD (zigzag.idxOf z) 0 := by
    intro l z hz
    unfold naturalOrder
    rw [List.getD_eq_getElem?_getD, List.getElem?_map, List.getElem?_range hz]
    rfl
  have e2 : ∀ (l : List UInt8) z, z < 64 → (naturalQuant l).getD z 0 = (l.getD (zigzag.idxOf z) 0).toNat := by
    intro l z hz
    unfold naturalQuant
    rw [List.getD_eq_getElem?_getD, List.getElem?_map, List.getElem?_range hz]
    rfl
  refine ⟨by simp [naturalOrder], by simp [naturalOrder], by simp [naturalQuant], by simp [naturalQuant],
    fun k hk => ?_, fun k hk => ?_, fun k hk => ?_⟩
  · rw [e2 _ k hk, e2 _ k hk]
    exact P.pos _ (hi k hk)
  · rw [e1 _ k hk, e1 _ k hk]
    exact P.small _ (hi k hk)
  · rw [e1 _ k hk, e1 _ k hk, e2 _ k hk, e2 _ k hk]
    exact P.same _ (hi k hk)

/-- **C69 (partial).** Two baseline grayscale files whose coefficients and quantisation tables have the same
products decode to the same image, whatever their Huffman codes and restart intervals. -/
theorem c69_gray_partial {g g' : GrayJpeg} (V : g.Valid) (V' : g'.Valid) (ew : g'.width = g.width)
    (eh : g'.height = g.height)
    (hb : ∀ n, n < (g.height + 7) / 8 * ((g.width + 7) / 8) →
      SameProducts g.quant g'.quant (g.intervals.flatten.getD n []) (g'.intervals.flatten.getD n []))
    (cpu : Cpu) (o : Options) (hw : g.width ≤ o.getMaxWidth) (hh : g.height ≤ o.getMaxHeight) :
    ((Decoder.newWithOptions cpu o).decodeBuffer g.bytes).1 =
      ((Decoder.newWithOptions cpu o).decodeBuffer g'.bytes).1 := by
  rw [c53_gray_partial V cpu o hw hh, c53_gray_partial V' cpu o (by rw [ew]; exact hw) (by rw [eh]; exact hh), ew, eh]
  congr 2
  unfold grayBytes
  refine List.map_congr_left fun p hp => ?_
  have hp' := List.mem_range.1 hp
  have h1 : p / g.width < g.height := Nat.div_lt_of_lt_mul (by rw [Nat.mul_comm]; exact hp')
  have h2 : p % g.width < g.width := Nat.mod_lt _ V.w0
  unfold planeSample
  rw [SameProducts.block (hb _ ?_)]
  have h3 : p / g.width / 8 + 1 ≤ (g.height + 7) / 8 := by omega
  have h4 : p % g.width / 8 < (g.width + 7) / 8 := by omega
  calc p / g.width / 8 * ((g.width + 7) / 8) + p % g.width / 8
      < (p / g.width / 8 + 1) * ((g.width + 7) / 8) := by rw [Nat.succ_mul]; omega
    _ ≤ _ := Nat.mul_le_mul_right _ h3

/-- Two colour images of the same size and sampling with the same products. -/
structure Spec.SameProductImage (g g' : ColourJpeg) : Prop where
  width : g'.width = g.width
  height : g'.height = g.height
  fh : g'.fh = g.fh
  fv : g'.fv = g.fv
  products : ∀ k i a b, i < 3 → k < mcuRows g.height g.fv * mcuCols g.width g.fh →
    a < (colourShape g.fh g.fv i).1 → b < (colourShape g.fh g.fv i).2 →
    SameProducts (g.quantOf i) (g'.quantOf i) (g.blocks k i a b) (g'.blocks k i a b)

/-- **C69 (partial).** The same holds for baseline colour files, with every sampling and every format of the
output. -/
theorem c69_colour_partial {g g' : ColourJpeg} (V : g.Valid) (V' : g'.Valid) (S : SameProductImage g g')
    (cpu : Cpu) (o : Options) (hw : g.width ≤ o.getMaxWidth) (hh : g.height ≤ o.getMaxHeight) :
    ((Decoder.newWithOptions cpu o).decodeBuffer g.bytes).1 =
      ((Decoder.newWithOptions cpu o).decodeBuffer g'.bytes).1 := by
  obtain ⟨oc, hoc⟩ : ∃ oc, o.getOutColorspace = oc := ⟨_, rfl⟩
  obtain ⟨d, c0, c1, c2, full, R, hq, K, hj⟩ := baseline_jobs V cpu o hw hh hoc
  obtain ⟨d', e0, e1, e2, full', R', hq', K', hj'⟩ := baseline_jobs V' cpu o (by rw [S.width]; exact hw)
    (by rw [S.height]; exact hh) hoc
  rw [S.width, S.height, S.fh, S.fv] at R' hj'
  refine colourJobs_planes R R' K K' rfl ?_ (fun t i ht hi => ?_) hj hj'
  · cases oc <;> decide
  have l1 : i < [c0, c1, c2].length := hi
  have l2 : i < [e0, e1, e2].length := hi
  unfold stripPlane unitRows
  refine List.map_congr_left fun p hp => ?_
  have hp' := List.mem_range.1 hp
  have hW : 0 < 8 * ((colourShape g.fh g.fv i).2 * mcuCols g.width g.fh) := by
    rcases Nat.eq_zero_or_pos (8 * ((colourShape g.fh g.fv i).2 * mcuCols g.width g.fh)) with e | e
    · rw [e] at hp'; omega
    · exact e
  have hr := strip_row ht R.frame.fpos.1 ((Nat.div_lt_iff_lt_mul hW).2 hp')
  have hc : p % (8 * ((colourShape g.fh g.fv i).2 * mcuCols g.width g.fh)) / 8 <
      (colourShape g.fh g.fv i).2 * mcuCols g.width g.fh := by
    have := Nat.mod_lt p hW
    omega
  have s1 : 0 < (colourShape g.fh g.fv i).1 := by
    rcases Nat.eq_zero_or_pos (colourShape g.fh g.fv i).1 with e | e
    · rw [e, Nat.zero_mul] at hr; exact absurd hr (Nat.not_lt_zero _)
    · exact e
  have s2 : 0 < (colourShape g.fh g.fv i).2 := by
    rcases Nat.eq_zero_or_pos (colourShape g.fh g.fv i).2 with e | e
    · rw [e, Nat.zero_mul] at hc; exact absurd hc (Nat.not_lt_zero _)
    · exact e
  unfold unitSample
  dsimp only
  rw [List.getElem?_eq_getElem l1, List.getElem?_eq_getElem l2, Option.elim_some, Option.elim_some,
    hq i _ (List.getElem?_eq_getElem l1), hq' i _ (List.getElem?_eq_getElem l2)]
  rw [SameProducts.block (S.products _ i _ _ hi ?_ (Nat.mod_lt _ s1) (Nat.mod_lt _ s2))]
  have k1 := (Nat.div_lt_iff_lt_mul s1).2 (by rw [Nat.mul_comm]; exact hr)
  have k2 := (Nat.div_lt_iff_lt_mul s2).2 (by rw [Nat.mul_comm]; exact hc)
  refine Nat.lt_of_lt_of_le (Nat.add_lt_add_left k2 _) ?_
  rw [← Nat.succ_mul]
  exact Nat.mul_le_mul_right _ k1

/-- A file with one block of the coefficients `dc` and `x`, of which the second has the step zero. -/
def zeroStep (dc x : Int) : List UInt8 :=
  (encodeGray 8 8 0 (1 :: 0 :: List.replicate 62 1) [dc :: x :: List.replicate 62 0]).bytes

/-- Steps must be positive: the shortcut for blocks without AC coefficients looks at the coefficients, not at
the products, and rounds differently. -/
theorem c69_zero_false : ∃ cpu, ((Decoder.new cpu).decodeBuffer (zeroStep 4 0)).1 ≠
    ((Decoder.new cpu).decodeBuffer (zeroStep 4 1)).1 :=
  ⟨⟨false, false⟩, by decide +kernel⟩

/-! ## Examples -/

/-- A block with two coefficients, in two sizes. -/
def scaledBlock (n : Int) : List Int := [7 * n, 0, -3 * n] ++ List.replicate 61 0

theorem scaledBlock_codable (n : Int) (h : n = 1 ∨ n = 2) : Codable (scaledBlock n) := by
  rcases h with rfl | rfl <;> exact ⟨by decide +kernel, by decide +kernel, by decide +kernel⟩

theorem scaledBlock_products : SameProducts (List.replicate 64 12) (List.replicate 64 6) (scaledBlock 1)
    (scaledBlock 2) := ⟨by decide +kernel, by decide +kernel, by decide +kernel⟩

theorem scaledBlock_equal : SameProducts (List.replicate 64 12) (List.replicate 64 12) (scaledBlock 1)
    (scaledBlock 1) := ⟨by decide +kernel, by decide +kernel, by decide +kernel⟩

/-- Grayscale files with different steps, different coefficients and different restart intervals. -/
example (cpu : Cpu) :
    ((Decoder.new cpu).decodeBuffer (encodeGray 17 8 0 (List.replicate 64 12)
      (List.replicate 3 (scaledBlock 1))).bytes).1 =
    ((Decoder.new cpu).decodeBuffer (encodeGray 17 8 2 (List.replicate 64 6)
      (List.replicate 3 (scaledBlock 2))).bytes).1 := by
  refine c69_gray_partial (g := encodeGray 17 8 0 _ _) (g' := encodeGray 17 8 2 _ _)
    (encodeGray_valid (by decide) (by decide) (by decide) (by decide) (by decide) (by decide) (fun b hb => ?_) rfl)
    (encodeGray_valid (by decide) (by decide) (by decide) (by decide) (by decide) (by decide) (fun b hb => ?_) rfl) rfl rfl
    (fun n hn => ?_) cpu _ (by decide) (by decide)
  · rw [List.eq_of_mem_replicate hb]; exact scaledBlock_codable _ (Or.inl rfl)
  · rw [List.eq_of_mem_replicate hb]; exact scaledBlock_codable _ (Or.inr rfl)
  · have hn : n < 3 := hn
    have : n = 0 ∨ n = 1 ∨ n = 2 := by omega
    show SameProducts _ _ ((chunks 0 _).flatten.getD n []) ((chunks 2 _).flatten.getD n [])
    rw [chunks_flatten, chunks_flatten]
    rcases this with rfl | rfl | rfl <;> exact scaledBlock_products

/-- Colour files of any sampling. -/
example (cpu : Cpu) (fh fv : Nat) (h3 : 0 < fh ∧ fh ≤ 2) (h4 : 0 < fv ∧ fv ≤ 2) :
    ((Decoder.new cpu).decodeBuffer (encodeColour 40 40 fh fv (List.replicate 64 12) (List.replicate 64 12)
      fun _ _ _ _ => scaledBlock 1).bytes).1 =
    ((Decoder.new cpu).decodeBuffer (encodeColour 40 40 fh fv (List.replicate 64 6) (List.replicate 64 12)
      fun _ i _ _ => if i = 0 then scaledBlock 2 else scaledBlock 1).bytes).1 := by
  refine c69_colour_partial (g := encodeColour 40 40 fh fv (List.replicate 64 12) (List.replicate 64 12)
      fun _ _ _ _ => scaledBlock 1) (g' := encodeColour 40 40 fh fv (List.replicate 64 6) (List.replicate 64 12)
      fun _ i _ _ => if i = 0 then scaledBlock 2 else scaledBlock 1)
    (encodeColour_valid (by decide) (by decide) h3 h4 (Or.inr (by decide)) (by decide) (by decide) fun _ _ _ _ =>
      scaledBlock_codable _ (Or.inl rfl))
    (encodeColour_valid (by decide) (by decide) h3 h4 (Or.inr (by decide)) (by decide) (by decide) fun _ i _ _ => ?_)
    ⟨rfl, rfl, rfl, rfl, fun k i a b _ _ _ _ => ?_⟩ cpu _ (show 40 ≤ _ by decide) (show 40 ≤ _ by decide)
  · split
    · exact scaledBlock_codable _ (Or.inr rfl)
    · exact scaledBlock_codable _ (Or.inl rfl)
  · by_cases e : i = 0
    · subst e
      exact scaledBlock_products
    · show SameProducts (if i = 0 then _ else _) (if i = 0 then _ else _) _ (if i = 0 then _ else _)
      rw [if_neg e, if_neg e, if_neg e]
      exact scaledBlock_equal

end Zune
