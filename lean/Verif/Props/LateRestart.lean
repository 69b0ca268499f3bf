import Verif.Props.Gray
/-!
# Restart markers that are seen too late

C22 and C53 need the condition of `Codes.Intervals` on the last symbol of a restart interval.
-/

namespace Zune
open Spec

/-- An image of 8 x 16 samples: two data units, the first of which ends with a symbol of 26 bits. -/
def lateJpeg (restart : Nat) (divide : List (List Int) → List (List (List Int))) : GrayJpeg where
  width := 8
  height := 16
  quant := List.replicate 64 1
  dcCounts := [0, 0, 0, 13] ++ List.replicate 12 0
  dcSymbols := [0, 1, 2, 3, 4, 5, 6, 7, 8, 9, 10, 11, 12]
  acCounts := [1, 0, 0, 0, 0, 0, 0, 1, 0, 0, 0, 0, 0, 0, 0, 1]
  acSymbols := [0, 0xF0, 0xEA]
  quantDest := 0
  dcDest := 0
  acDest := 0
  restart := restart
  dcWord := fun s => natBits 4 s
  acWord := fun s => if s = 0 then [false] else if s = 0xF0 then natBits 8 128 else natBits 16 33024
  intervals := divide [4 :: (List.replicate 62 0 ++ [1000]), 100 :: List.replicate 63 0]
  trailer := []

theorem lateJpeg_block {pred : Int} {b : List Int} (restart : Nat)
    (divide : List (List Int) → List (List (List Int)))
    (hb : b ∈ [4 :: (List.replicate 62 0 ++ [1000]), 100 :: List.replicate 63 0])
    (hp : category (dcOfBlock b - pred) ≤ 12) : (lateJpeg restart divide).codes.Block pred b := by
  have hdc : ∀ k : Fin 13, (natBits 4 k, (k : Nat)) ∈
      codeBook (([0, 0, 0, 13] ++ List.replicate 12 0 : List UInt8).map (·.toNat))
        [0, 1, 2, 3, 4, 5, 6, 7, 8, 9, 10, 11, 12] := by decide +kernel
  have hac : ∀ b ∈ ([4 :: (List.replicate 62 0 ++ [1000]), 100 :: List.replicate 63 0] : List (List Int)),
      b.length = 64 ∧ (∀ x ∈ b.tail, category x ≤ 15) ∧
      ∀ p ∈ acSymbols 0 b.tail, ((if p.1 = 0 then [false] else if p.1 = 0xF0 then natBits 8 128
        else natBits 16 33024 : List Bool), p.1) ∈
        codeBook (([1, 0, 0, 0, 0, 0, 0, 1, 0, 0, 0, 0, 0, 0, 0, 1] : List UInt8).map (·.toNat))
          [0, 0xF0, 0xEA] ∧
        (6 ≤ p.1 % 16 → 9 < (if p.1 = 0 then [false] else if p.1 = 0xF0 then natBits 8 128
        else natBits 16 33024 : List Bool).length + p.1 % 16) := by decide +kernel
  obtain ⟨h1, h2, h3⟩ := hac b hb
  exact ⟨h1, h2, hdc ⟨_, Nat.lt_succ_of_le hp⟩, fun p hp => (h3 p hp).1, fun p hp h6 => (h3 p hp).2 h6⟩

/-- The image without restart intervals is a valid one. -/
theorem lateJpeg_whole : (lateJpeg 0 fun l => [l]).Valid where
  w0 := by show 0 < 8; decide
  h0 := by show 0 < 16; decide
  wLe := by show 8 ≤ 65527; decide
  hLe := by show 16 ≤ 65527; decide
  quant := by show (List.replicate 64 _).length = 64; simp
  quantDest := by show 0 < 4; decide
  dcDest := by show 0 < 4; decide
  acDest := by show 0 < 4; decide
  restart := by show 0 < 65536; decide
  dcLen := by show ([0, 0, 0, 13] ++ List.replicate 12 0 : List UInt8).length = 16; decide
  acLen := rfl
  dcSum := by
    show (([0, 0, 0, 13] ++ List.replicate 12 0 : List UInt8).map (·.toNat)).sum = 13
    decide
  acSum := rfl
  dcMax := by show 13 ≤ 256; decide
  acMax := by show 3 ≤ 256; decide
  dcCode := by
    show CodeExists (([0, 0, 0, 13] ++ List.replicate 12 0 : List UInt8).map (·.toNat))
    unfold CodeExists
    decide +kernel
  acCode := by
    show CodeExists (([1, 0, 0, 0, 0, 0, 0, 1, 0, 0, 0, 0, 0, 0, 0, 1] : List UInt8).map (·.toNat))
    unfold CodeExists
    decide +kernel
  dcSmall := by
    show ∀ v ∈ ([0, 1, 2, 3, 4, 5, 6, 7, 8, 9, 10, 11, 12] : List UInt8), v.toNat ≤ 15
    decide
  intervals := by
    refine ⟨by show [_, _] ≠ []; simp, ⟨lateJpeg_block _ _ (by simp) (by decide), ?_,
      lateJpeg_block _ _ (by simp) (by decide), ?_, trivial⟩, fun h => absurd rfl h⟩
    · intro b' hb'
      cases hb'
      exact Or.inl (by decide)
    · intro b' hb'
      cases hb'
  count := rfl

/-- **C22 and C53** are false of grayscale images as well. The image with a restart after the first data unit
meets every condition but the one on the last symbol of an interval: its 26 bits are read without
another look at the file, so that the decoder does not know of the restart marker when it counts the data
unit. It goes on with the seven bits of filling as if they were the start of the second data unit, and refuses
the file. Without the restart the image is decoded. -/
theorem c22_late_false :
    (lateJpeg 1 fun l => [l.take 1, l.drop 1]).intervals.flatten = (lateJpeg 0 fun l => [l]).intervals.flatten ∧
    (∀ iv ∈ (lateJpeg 1 fun l => [l.take 1, l.drop 1]).intervals, iv.length = 1 ∧
      (lateJpeg 1 fun l => [l.take 1, l.drop 1]).codes.Blocks 0 iv) ∧
    (∃ out, ((Decoder.new ⟨false, false⟩).decodeBuffer (lateJpeg 0 fun l => [l]).bytes).1 = .ok out) ∧
    ((Decoder.new ⟨false, false⟩).decodeBuffer (lateJpeg 1 fun l => [l.take 1, l.drop 1]).bytes).1 =
      .err .huffmanDecode := by
  refine ⟨rfl, ?_, ⟨_, by rw [Decoder.new, c53_gray_partial lateJpeg_whole _ _ (by decide) (by decide)]; rfl⟩,
    by decide +kernel⟩
  intro iv hiv
  have : iv = [4 :: (List.replicate 62 0 ++ [1000])] ∨ iv = [100 :: List.replicate 63 0] := by
    have : iv ∈ ([[4 :: (List.replicate 62 0 ++ [1000])], [100 :: List.replicate 63 0]] :
      List (List (List Int))) := hiv
    simpa using this
  rcases this with rfl | rfl
  · exact ⟨rfl, lateJpeg_block _ _ (by simp) (by decide), (by intro _ h; cases h), trivial⟩
  · exact ⟨rfl, lateJpeg_block _ _ (by simp) (by decide), (by intro _ h; cases h), trivial⟩

end Zune
