import Verif.Lemmas.Reader
import Verif.Spec.Encoder
/-! The bytes of a coded scan as the bit reader sees them. -/

namespace Zune
open Spec

/-- Stuffed bytes up to a marker. -/
theorem scan_stuff (l : List UInt8) (m : UInt8) (r : List UInt8) (h0 : m ≠ 0) (hf : m ≠ 0xFF) :
    scan false (stuffBytes l ++ 0xFF :: m :: r) = (l, some (m, r)) := by
  induction l with
  | nil => simp [stuffBytes, scan, h0, hf]
  | cons b l ih =>
    by_cases hb : b = 0xFF
    · subst hb
      show scan false (0xFF :: 0 :: (stuffBytes l ++ 0xFF :: m :: r)) = _
      simp [scan, ih]
    · have : stuffBytes (b :: l) = b :: stuffBytes l := by
        unfold stuffBytes
        rw [List.flatMap_cons, if_neg hb]
        rfl
      rw [this]
      simp [scan, hb, ih]

theorem bytesBits_packBytes : ∀ (l : List Bool), l.length % 8 = 0 → bytesBits (packBytes l) = l
  | [], _ => rfl
  | a :: b :: c :: d :: e :: f :: g :: h :: r, hl => by
    have ih := bytesBits_packBytes r (by simp only [List.length_cons] at hl; omega)
    rw [packBytes]
    show natBits 8 _ ++ bytesBits (packBytes r) = _
    rw [ih]
    have h8 := natBits_bitsNat [a, b, c, d, e, f, g, h]
    have hlt := bitsNat_lt [a, b, c, d, e, f, g, h]
    simp only [List.length_cons, List.length_nil] at h8 hlt
    rw [UInt8.toNat_ofNat', Nat.mod_eq_of_lt hlt, h8]
    rfl
  | [_], hl => by simp at hl
  | [_, _], hl => by simp at hl
  | [_, _, _], hl => by simp at hl
  | [_, _, _, _], hl => by simp at hl
  | [_, _, _, _, _], hl => by simp at hl
  | [_, _, _, _, _, _], hl => by simp at hl
  | [_, _, _, _, _, _, _], hl => by simp at hl

theorem padBits_length (l : List Bool) : (padBits l).length % 8 = 0 := by
  simp only [padBits, padCount, List.length_append, List.length_replicate]
  omega

theorem padCount_le (n : Nat) : padCount n ≤ 7 := by unfold padCount; omega

/-- A reader at the start of an interval. -/
theorem rep_interval {dcWord acWord : Nat → List Bool} {blocks : List (List Int)} {m : UInt8}
    {r : List UInt8} (h0 : m ≠ 0) (hf : m ≠ 0xFF) (hk : (Marker.fromU8 m).isSome) (bs : BitStream)
    (hb : bs.bitsLeft = 0) (hm : bs.marker = none) :
    Rep { bs := bs, rd := intervalBytes dcWord acWord blocks ++ 0xFF :: m :: r }
      (blocksBits dcWord acWord 0 blocks ++
        List.replicate (padCount (blocksBits dcWord acWord 0 blocks).length) true)
      (some (m, r)) := by
  have hs := scan_stuff (packBytes (padBits (blocksBits dcWord acWord 0 blocks))) m r h0 hf
  have e1 : scanData (intervalBytes dcWord acWord blocks ++ 0xFF :: m :: r) =
      packBytes (padBits (blocksBits dcWord acWord 0 blocks)) := by
    rw [scanData, intervalBytes, hs]
  have e2 : scanEnd (intervalBytes dcWord acWord blocks ++ 0xFF :: m :: r) = some (m, r) := by
    rw [scanEnd, intervalBytes, hs]
  have := rep_new (intervalBytes dcWord acWord blocks ++ 0xFF :: m :: r) bs hb hm (by
    rw [e2]
    rintro m' r' h
    cases h
    exact hk)
  rw [e1, e2, bytesBits_packBytes _ (padBits_length _)] at this
  exact this

end Zune
