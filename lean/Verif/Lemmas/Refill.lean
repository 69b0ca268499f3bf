import Verif.Lemmas.Reader
import Mathlib.Tactic.Tauto
/-! Refilling the bit buffer. -/

namespace Zune
open Spec

theorem add_append {m n : Nat} (x x' : BitVec m) (y y' : BitVec n)
    (h : y.toNat + y'.toNat < 2 ^ n) : (x ++ y) + (x' ++ y') = (x + x') ++ (y + y') := by
  apply BitVec.eq_of_toNat_eq
  have h2 : (y + y').toNat = y.toNat + y'.toNat := by
    rw [BitVec.toNat_add, Nat.mod_eq_of_lt h]
  have e : ∀ (a : BitVec m) (b : BitVec n), (a ++ b).toNat = a.toNat * 2 ^ n + b.toNat := by
    intro a b
    rw [BitVec.toNat_append, ← Nat.shiftLeft_add_eq_or_of_lt b.isLt, Nat.shiftLeft_eq]
  rw [BitVec.toNat_add, e, e, e, h2, BitVec.toNat_add]
  have h3 : x.toNat * 2 ^ n + y.toNat + (x'.toNat * 2 ^ n + y'.toNat) =
      (x.toNat + x'.toNat) * 2 ^ n + (y.toNat + y'.toNat) := by ring
  rw [h3, Nat.pow_add, Nat.mul_comm (2 ^ m), Nat.mod_mul,
    Nat.mul_comm _ (2 ^ n), Nat.mul_add_mod, Nat.mod_eq_of_lt h, Nat.mul_add_div (by positivity),
    Nat.div_eq_of_lt h, Nat.add_zero, Nat.add_comm, Nat.mul_comm]

/-- One byte of the zero test. -/
def zeroTest (x : BitVec 8) : BitVec 8 := ~~~((((x &&& 0x7F) + 0x7F) ||| x) ||| 0x7F)

theorem zeroTest_iff : ∀ x : BitVec 8, zeroTest x = 0 ↔ x ≠ 0 := by decide +kernel
theorem byte_add (x : BitVec 8) : (x &&& 0x7F#8).toNat + (0x7F#8).toNat < 2 ^ 8 := by
  rw [BitVec.toNat_and]
  have := @Nat.and_le_right x.toNat (0x7F#8).toNat
  have h : (0x7F#8).toNat = 127 := rfl
  omega


theorem append_eq_zero {m n : Nat} (x : BitVec m) (y : BitVec n) :
    x ++ y = 0#(m + n) ↔ x = 0#m ∧ y = 0#n := by
  constructor
  · intro h
    have h1 := congrArg BitVec.toNat h
    rw [BitVec.toNat_append, ← Nat.shiftLeft_add_eq_or_of_lt y.isLt, Nat.shiftLeft_eq] at h1
    simp only [BitVec.toNat_ofNat, Nat.zero_mod, Nat.add_eq_zero_iff, Nat.mul_eq_zero,
      Nat.pow_eq_zero] at h1
    exact ⟨BitVec.eq_of_toNat_eq (by simpa using h1.1), BitVec.eq_of_toNat_eq (by simpa using h1.2)⟩
  · rintro ⟨rfl, rfl⟩; simp

theorem hasZero_append (a b c d : BitVec 8) :
    hasZero (a ++ b ++ c ++ d : BitVec (8 + 8 + 8 + 8)) = true ↔
      (a = 0 ∨ b = 0 ∨ c = 0 ∨ d = 0) := by
  have e : hasZero (a ++ b ++ c ++ d : BitVec (8 + 8 + 8 + 8)) =
      ((zeroTest a ++ zeroTest b ++ zeroTest c ++ zeroTest d : BitVec (8 + 8 + 8 + 8)) !=
        (0#(8 + 8 + 8 + 8))) := by
    unfold hasZero
    have k : (0x7F7F7F7F : BitVec 32) = (0x7F#8 ++ 0x7F#8 ++ 0x7F#8 ++ 0x7F#8 :) := rfl
    rw [k]
    show (~~~((((a ++ b ++ c ++ d) &&& (0x7F#8 ++ 0x7F#8 ++ 0x7F#8 ++ 0x7F#8)) +
      (0x7F#8 ++ 0x7F#8 ++ 0x7F#8 ++ 0x7F#8) ||| (a ++ b ++ c ++ d)) |||
      (0x7F#8 ++ 0x7F#8 ++ 0x7F#8 ++ 0x7F#8)) != 0#(8 + 8 + 8 + 8)) = _
    rw [BitVec.and_append, BitVec.and_append, BitVec.and_append,
      add_append _ _ _ _ (byte_add _), add_append _ _ _ _ (byte_add _),
      add_append _ _ _ _ (byte_add _), BitVec.or_append, BitVec.or_append, BitVec.or_append,
      BitVec.or_append, BitVec.or_append, BitVec.or_append, BitVec.not_append, BitVec.not_append,
      BitVec.not_append]
    rfl
  rw [e, bne_iff_ne, ne_eq, append_eq_zero, append_eq_zero, append_eq_zero,
    show (0#8 : BitVec 8) = 0 from rfl, zeroTest_iff, zeroTest_iff, zeroTest_iff, zeroTest_iff]
  tauto

/-- The word test of the fast refill. -/
theorem hasByte_ff (a b c d : UInt8) :
    hasByte (be32 a b c d) 255 = true ↔ (a = 255 ∨ b = 255 ∨ c = 255 ∨ d = 255) := by
  have k : (0x01010101 : BitVec 32) * (255 : BitVec 8).setWidth 32 =
      (0xFF#8 ++ 0xFF#8 ++ 0xFF#8 ++ 0xFF#8 :) := by decide
  have hx : ∀ x : UInt8, x.toBitVec ^^^ 0xFF#8 = 0 ↔ x = 255 := by
    intro x
    constructor
    · intro h
      have : x.toBitVec = 0xFF#8 := by
        have := congrArg (· ^^^ 0xFF#8) h
        simpa [BitVec.xor_assoc] using this
      exact UInt8.toBitVec_inj.1 this
    · rintro rfl; decide
  unfold hasByte be32
  rw [k]
  show hasZero (((a.toBitVec ++ b.toBitVec ++ c.toBitVec ++ d.toBitVec :
      BitVec (8 + 8 + 8 + 8)).setWidth (8 + 8 + 8 + 8)) ^^^
      (0xFF#8 ++ 0xFF#8 ++ 0xFF#8 ++ 0xFF#8 : BitVec (8 + 8 + 8 + 8))) = true ↔ _
  rw [BitVec.setWidth_eq, BitVec.xor_append, BitVec.xor_append, BitVec.xor_append,
    hasZero_append, hx, hx, hx, hx]

theorem be32_toNat (a b c d : UInt8) : (be32 a b c d).toNat =
    ((a.toNat * 2 ^ 8 + b.toNat) * 2 ^ 8 + c.toNat) * 2 ^ 8 + d.toNat := by
  have e : ∀ (m : Nat) (x : BitVec m) (y : UInt8),
      (x ++ y.toBitVec).toNat = x.toNat * 2 ^ 8 + y.toNat := by
    intro m x y
    rw [BitVec.toNat_append, ← Nat.shiftLeft_add_eq_or_of_lt y.toBitVec.isLt, Nat.shiftLeft_eq]
    rfl
  have := a.toNat_lt; have := b.toNat_lt; have := c.toNat_lt; have := d.toNat_lt
  rw [be32, BitVec.toNat_setWidth, e, e, e, UInt8.toNat_toBitVec, Nat.mod_eq_of_lt (by omega)]

theorem shl8_or (buf : BitVec 64) (b : UInt8) :
    ((buf <<< 8) ||| (b.toBitVec.setWidth 64)).toNat = (buf.toNat % 2 ^ 56) * 2 ^ 8 + b.toNat := by
  have hb : b.toNat < 2 ^ 8 := b.toNat_lt
  have hx : (buf <<< 8 : BitVec 64).toNat = (buf.toNat % 2 ^ 56) <<< 8 := by
    rw [BitVec.toNat_shiftLeft, Nat.shiftLeft_eq, Nat.shiftLeft_eq]; omega
  have hy : (b.toBitVec.setWidth 64).toNat = b.toNat := by
    rw [BitVec.toNat_setWidth, UInt8.toNat_toBitVec]; omega
  rw [BitVec.toNat_or, hx, hy, ← Nat.shiftLeft_add_eq_or_of_lt hb, Nat.shiftLeft_eq]

/-- Appending four bytes one after the other or as one word. -/
theorem shl32_or (buf : BitVec 64) (a b c d : UInt8) :
    (buf <<< 32) ||| (be32 a b c d).setWidth 64 =
      ((((buf <<< 8 ||| a.toBitVec.setWidth 64) <<< 8 ||| b.toBitVec.setWidth 64) <<< 8 |||
        c.toBitVec.setWidth 64) <<< 8 ||| d.toBitVec.setWidth 64) := by
  apply BitVec.eq_of_toNat_eq
  have := a.toNat_lt; have := b.toNat_lt; have := c.toNat_lt; have := d.toNat_lt
  have hw := be32_toNat a b c d
  have hlt : (be32 a b c d).toNat < 2 ^ 32 := (be32 a b c d).isLt
  have hx : (buf <<< 32 : BitVec 64).toNat = (buf.toNat % 2 ^ 32) <<< 32 := by
    rw [BitVec.toNat_shiftLeft, Nat.shiftLeft_eq, Nat.shiftLeft_eq]; omega
  have hy : ((be32 a b c d).setWidth 64).toNat = (be32 a b c d).toNat := by
    rw [BitVec.toNat_setWidth]; omega
  rw [BitVec.toNat_or, hx, hy, ← Nat.shiftLeft_add_eq_or_of_lt hlt, Nat.shiftLeft_eq,
    shl8_or, shl8_or, shl8_or, shl8_or, hw]
  omega

/-- The fast refill is four single byte refills. -/
theorem fast_eq_slow (bs : BitStream) (a b c d : UInt8) (r : List UInt8) (ha : a ≠ 255)
    (hb : b ≠ 255) (hc : c ≠ 255) (hd : d ≠ 255) :
    refillBytes 4 { bs := bs, rd := a :: b :: c :: d :: r } =
      (.ok (), { bs := fastAppend bs (be32 a b c d), rd := r }) := by
  simp only [refillBytes, refillByte, readU8, ha, hb, hc, hd, if_false, fastAppend, shl32_or]

theorem refill_slow (s : B) (h : s.bs.bitsLeft ≤ 32) (hm : s.bs.marker = none) :
    refill s = refillBytes 4 s := by
  obtain ⟨bs, rd⟩ := s
  simp only at h hm
  unfold refill
  rw [if_pos ⟨h, hm⟩]
  rcases rd with _ | ⟨a, _ | ⟨b, _ | ⟨c, _ | ⟨d, _ | ⟨e, r⟩⟩⟩⟩⟩ <;> try rfl
  show (if (!hasByte (be32 a b c d) 255) = true then _ else _) = _
  by_cases hf : hasByte (be32 a b c d) 255 = true
  · rw [if_neg (by rw [hf]; decide)]
  · rw [if_pos (by rw [Bool.eq_false_iff.2 hf]; rfl)]
    have := (not_congr (hasByte_ff a b c d)).1 hf
    simp only [not_or] at this
    exact (fast_eq_slow bs a b c d (e :: r) this.1 this.2.1 this.2.2.1 this.2.2.2).symm

/-- Refilling keeps the view and makes at least 32 bits (or all bits) available. -/
theorem Rep.refill {s : B} {bits tail} (h : Rep s bits tail) :
    ∃ s', refill s = (.ok (), s') ∧ Rep s' bits tail ∧
      (32 ≤ s'.bs.bitsLeft ∨ bits.length ≤ s'.bs.bitsLeft) ∧
      (∃ a b c d, s'.bs = { s.bs with buffer := a, aligned := b, bitsLeft := c, marker := d }) ∧
      (s'.bs.marker = none → 32 ≤ s'.bs.bitsLeft) := by
  by_cases hm : s.bs.marker = none
  · by_cases hl : s.bs.bitsLeft ≤ 32
    · rw [refill_slow s hl hm]
      have h' : Rep' s bits tail := by
        refine ⟨hm, ?_, h.atEnd, fun ht => ?_⟩
        · have := h.pre
          rwa [h.sync hm, B.unread, if_pos hm] at this
        · have := h.exact hm ht
          rwa [h.sync hm, B.unread, if_pos hm] at this
      obtain ⟨s', r1, r2, r3, r4, ⟨a, b, c, r5⟩, r6⟩ := h'.refill 4 (by omega)
      exact ⟨s', r1, r2, by omega, ⟨a, b, _, c, r5⟩, fun h => by have := r6 h; omega⟩
    · refine ⟨s, ?_, h, Or.inl (by omega), ⟨_, _, _, _, rfl⟩, fun _ => by omega⟩
      simp [Zune.refill, hl, hm]
  · refine ⟨{ s with bs := { s.bs with bitsLeft := 63 } }, by simp [Zune.refill, hm], ?_,
      Or.inl (by simp), ⟨_, _, _, _, rfl⟩, fun _ => by simp⟩
    have h63 := h.le63 hm
    refine ⟨by simp, fun hc => absurd hc hm, fun _ => by simp, ?_, ?_, fun hc => absurd hc hm⟩
    · have := h.pre
      rw [B.unread, if_neg hm, List.append_nil] at this
      rw [B.unread, if_neg hm, List.append_nil]
      refine this.trans ?_
      show List.take s.bs.bitsLeft _ <+: List.take 63 _
      exact List.take_prefix_take_left h63
    · exact h.atEnd

/-- Conditional refill. -/
theorem Rep.refillIfBelow {s : B} {bits tail} (h : Rep s bits tail) (n : Nat) (hn : n ≤ 32) :
    ∃ s', refillIfBelow n s = (.ok (), s') ∧ Rep s' bits tail ∧
      (n ≤ s'.bs.bitsLeft ∨ bits.length ≤ s'.bs.bitsLeft) ∧
      (∃ a b c d, s'.bs = { s.bs with buffer := a, aligned := b, bitsLeft := c, marker := d }) := by
  unfold Zune.refillIfBelow
  by_cases hl : s.bs.bitsLeft < n
  · rw [if_pos hl]
    obtain ⟨s', r1, r2, r3, r4, -⟩ := h.refill
    exact ⟨s', r1, r2, by omega, r4⟩
  · rw [if_neg hl]
    exact ⟨s, rfl, h, by omega, _, _, _, _, rfl⟩

end Zune
