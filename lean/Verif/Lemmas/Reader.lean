import Verif.Lemmas.Huffman
import Verif.Spec.Scan
/-! The bit reader as a view of a bit string. -/

namespace Zune
open Spec

theorem natBits_mod_le {n m v : Nat} (h : n ≤ m) : natBits n (v % 2 ^ m) = natBits n v := by
  rw [← natBits_mod n, ← natBits_mod n v, Nat.mod_mod_of_dvd _ (Nat.pow_dvd_pow 2 h)]

theorem natBits_getElem {n v i : Nat} (h : i < (natBits n v).length) :
    (natBits n v)[i] = v.testBit (n - 1 - i) := by
  induction n generalizing i with
  | zero => simp [natBits] at h
  | succ n ih =>
    cases i with
    | zero => simp [natBits]
    | succ i =>
      simp only [natBits, List.getElem_cons_succ]
      rw [ih]; congr 1; omega

theorem natBits_bv {w : Nat} (x : BitVec w) {i : Nat} (h : i < (natBits w x.toNat).length) :
    (natBits w x.toNat)[i] = x.getMsbD i := by
  rw [natBits_getElem, BitVec.getMsbD]
  simp only [natBits_length] at h
  simp [h, BitVec.getLsbD]

theorem natBits_shiftLeft {w : Nat} (x : BitVec w) (n : Nat) (h : n ≤ w) :
    natBits w (x <<< n).toNat = (natBits w x.toNat).drop n ++ List.replicate n false := by
  apply List.ext_getElem
  · simp; omega
  · intro i h1 h2
    simp only [natBits_length] at h1
    rw [natBits_bv, BitVec.getMsbD_shiftLeft]
    by_cases hi : i < w - n
    · rw [List.getElem_append_left (by simp; omega), List.getElem_drop, natBits_bv, Nat.add_comm]
    · rw [List.getElem_append_right (by simp; omega), List.getElem_replicate]
      exact BitVec.getMsbD_of_ge _ _ (by omega)

theorem natBits_rotateLeft {w : Nat} (x : BitVec w) (n : Nat) (h : n < w) :
    natBits w (x.rotateLeft n).toNat =
      (natBits w x.toNat).drop n ++ (natBits w x.toNat).take n := by
  apply List.ext_getElem
  · simp; omega
  · intro i h1 h2
    simp only [natBits_length] at h1
    rw [natBits_bv, BitVec.getMsbD_rotateLeft]
    by_cases hi : i < w - n
    · rw [List.getElem_append_left (by simp; omega), List.getElem_drop, natBits_bv]
      rw [Nat.mod_eq_of_lt (by omega)]
      simp [h1]
    · rw [List.getElem_append_right (by simp; omega), List.getElem_take, natBits_bv]
      simp only [List.length_drop, natBits_length, h1, decide_true, Bool.true_and]
      rw [show (n + i) % w = i - (w - n) by
        rw [show n + i = (i - (w - n)) + w by omega, Nat.add_mod_right, Nat.mod_eq_of_lt (by omega)]]

/-- The buffered bits. -/
def B.avail (s : B) : List Bool := (natBits 64 s.bs.aligned.toNat).take s.bs.bitsLeft

/-- What the marker field and the unread bytes say about the end of the scan. -/
def B.atEnd (s : B) (tail : Option (UInt8 × List UInt8)) : Prop :=
  match s.bs.marker with
  | none => scanEnd s.rd = tail ∧ ∀ m r, tail = some (m, r) → (Marker.fromU8 m).isSome
  | some k => ∃ m, tail = some (m, s.rd) ∧ Marker.fromU8 m = some k

/-- The unread data bits. -/
def B.unread (s : B) : List Bool := if s.bs.marker = none then bytesBits (scanData s.rd) else []

/-- `bits` are the next bits of the stream; `tail` is the marker that ends the stream (known to the
library) with the bytes that follow it, `none` if the input ends without a marker. As long as a marker
is ahead and has not been reached, `bits` are all the bits before it. -/
structure Rep (s : B) (bits : List Bool) (tail : Option (UInt8 × List UInt8)) : Prop where
  le : s.bs.bitsLeft ≤ 64
  sync : s.bs.marker = none → s.avail = natBits s.bs.bitsLeft s.bs.buffer.toNat
  le63 : s.bs.marker ≠ none → s.bs.bitsLeft ≤ 63
  pre : bits <+: s.avail ++ s.unread
  atEnd : s.atEnd tail
  exact : s.bs.marker = none → tail ≠ none → s.avail ++ s.unread = bits

theorem B.avail_length (s : B) (h : s.bs.bitsLeft ≤ 64) : s.avail.length = s.bs.bitsLeft := by
  simp [B.avail]; omega

/-- A new reader at the start of the entropy coded data. -/
theorem rep_new (bytes : List UInt8) (bs : BitStream) (hb : bs.bitsLeft = 0) (hm : bs.marker = none)
    (hk : ∀ m r, scanEnd bytes = some (m, r) → (Marker.fromU8 m).isSome) :
    Rep { bs := bs, rd := bytes } (bytesBits (scanData bytes)) (scanEnd bytes) := by
  constructor
  · simp [hb]
  · simp [B.avail, hb, natBits]
  · simp [hb]
  · simp [B.avail, hb, B.unread, hm]
  · simp only [B.atEnd, hm]; exact ⟨trivial, hk⟩
  · simp [B.avail, hb, B.unread, hm]

theorem Rep.mono {s : B} {a b : List Bool} (h : Rep s b none) (hp : a <+: b) :
    Rep s a none := { h with pre := hp.trans h.pre, exact := fun _ hn => absurd rfl hn }

/-! ### Using bits -/

theorem Rep.split {s : B} {w rest : List Bool} {tail} (h : Rep s (w ++ rest) tail)
    (hw : w.length ≤ s.bs.bitsLeft) :
    w <+: s.avail ∧ rest <+: s.avail.drop w.length ++ s.unread := by
  have hl := s.avail_length h.le
  obtain ⟨r, hr⟩ := h.pre
  have h1 : w <+: s.avail := by
    apply List.prefix_of_prefix_length_le (l₃ := s.avail ++ s.unread)
    · exact ⟨rest ++ r, by simpa using hr⟩
    · exact List.prefix_append _ _
    · omega
  refine ⟨h1, r, ?_⟩
  have := congrArg (List.drop w.length) hr
  rw [List.append_assoc, List.drop_append_of_le_length (by omega)] at this
  simpa [List.drop_append_of_le_length (show w.length ≤ s.avail.length by omega)] using this

/-- The bits that are buffered can be peeked at. -/
theorem Rep.peek_prefix {s : B} {w rest : List Bool} {tail} (h : Rep s (w ++ rest) tail)
    (hw : w.length ≤ s.bs.bitsLeft) : w <+: natBits 64 s.bs.aligned.toNat :=
  (h.split hw).1.trans (List.take_prefix _ _)

/-- Changing the aligned buffer so that its first bits are those after the first `n`. -/
theorem Rep.advance {s : B} {w rest : List Bool} {tail} (h : Rep s (w ++ rest) tail)
    (hw : w.length ≤ s.bs.bitsLeft) (al : BitVec 64) (x : List Bool)
    (hal : natBits 64 al.toNat = (natBits 64 s.bs.aligned.toNat).drop w.length ++ x) :
    Rep { s with bs := { s.bs with aligned := al, bitsLeft := s.bs.bitsLeft - w.length } } rest
      tail := by
  obtain ⟨h1, h2⟩ := h.split hw
  have hle := h.le
  have hav : B.avail { s with bs := { s.bs with
      aligned := al, bitsLeft := s.bs.bitsLeft - w.length } } = s.avail.drop w.length := by
    simp only [B.avail, hal, List.drop_take]
    rw [List.take_append_of_le_length]
    simp; omega
  constructor
  · show s.bs.bitsLeft - _ ≤ 64; omega
  · intro hm
    rw [hav, h.sync hm, natBits_drop hw]
  · intro hm; have := h.le63 hm; show s.bs.bitsLeft - _ ≤ 63; omega
  · rw [hav]; exact h2
  · exact h.atEnd
  · intro hm ht
    have he := congrArg (List.drop w.length) (h.exact hm ht)
    rw [List.drop_append_of_le_length (by rw [s.avail_length hle]; exact hw), List.drop_left] at he
    rw [hav]
    exact he

theorem Rep.drop {s : B} {w rest : List Bool} {tail} (h : Rep s (w ++ rest) tail)
    (hw : w.length ≤ s.bs.bitsLeft) :
    Rep { s with bs := s.bs.drop w.length } rest tail := by
  have hle := h.le
  exact h.advance hw _ _ (natBits_shiftLeft _ _ (by omega))

/-- Reading `n` bits returns them as a number. -/
theorem Rep.getBits {s : B} {w rest : List Bool} {tail} (h : Rep s (w ++ rest) tail)
    (hw : w.length ≤ s.bs.bitsLeft) (h31 : w.length < 32) :
    ∃ s', getBitsM w.length s = (.ok (BitVec.ofNat 32 (bitsNat w)), s') ∧ Rep s' rest tail ∧
      s'.bs.bitsLeft = s.bs.bitsLeft - w.length ∧ s'.rd = s.rd ∧ s'.bs.marker = s.bs.marker := by
  have hrot := natBits_rotateLeft s.bs.aligned w.length (by omega)
  refine ⟨_, ?_, h.advance hw _ _ hrot, rfl, rfl, rfl⟩
  show ((Out.ok _ : Out I32), _) = _
  congr 2
  have hp := h.peek_prefix hw
  have htake : (natBits 64 s.bs.aligned.toNat).take w.length = w :=
    (List.prefix_iff_eq_take.1 hp).symm
  rw [htake] at hrot
  have hval : bitsNat (natBits 64 (s.bs.aligned.rotateLeft w.length).toNat) %
      2 ^ w.length = bitsNat w := by
    rw [hrot, bitsNat_append, Nat.mul_add_mod_self_right, Nat.mod_eq_of_lt (bitsNat_lt w)]
  rw [bitsNat_natBits, Nat.mod_eq_of_lt (BitVec.isLt _)] at hval
  apply BitVec.eq_of_toNat_eq
  rw [BitVec.toNat_setWidth, BitVec.toNat_and, BitVec.toNat_ofNat, ← hval]
  have hlt : 2 ^ w.length < 2 ^ 32 := Nat.pow_lt_pow_right (a := 2) (by norm_num) h31
  have h1 : 0 < 2 ^ w.length := by positivity
  have hsh : (1#64 <<< w.length).toNat = 2 ^ w.length := by
    rw [BitVec.toNat_shiftLeft, Nat.shiftLeft_eq, BitVec.toNat_ofNat, Nat.mod_eq_of_lt]
    · omega
    · omega
  have hm : (1#64 <<< w.length - 1#64).toNat = 2 ^ w.length - 1 := by
    rw [BitVec.toNat_sub_of_le, hsh]
    · rfl
    · rw [BitVec.le_def, hsh, BitVec.toNat_ofNat]; omega
  rw [hm, Nat.and_two_pow_sub_one_eq_mod]

/-- Reading one bit. -/
theorem Rep.getBit {s : B} {b : Bool} {rest : List Bool} {tail} (h : Rep s (b :: rest) tail)
    (hw : 1 ≤ s.bs.bitsLeft) :
    ∃ s', getBitM s = (.ok b, s') ∧ Rep s' rest tail ∧
      s'.bs.bitsLeft = s.bs.bitsLeft - 1 ∧ s'.rd = s.rd ∧ s'.bs.marker = s.bs.marker := by
  have h' : Rep s ([b] ++ rest) tail := h
  have hp := h'.peek_prefix (by simpa using hw)
  refine ⟨_, ?_, h'.drop (by simpa using hw), rfl, rfl, rfl⟩
  show ((Out.ok s.bs.aligned.msb : Out Bool), _) = _
  congr 2
  obtain ⟨r, hr⟩ := hp
  have h0 : 0 < (natBits 64 s.bs.aligned.toNat).length := by simp
  have := natBits_bv s.bs.aligned h0
  rw [BitVec.msb_eq_getMsbD_zero, ← this]
  simp [← hr]

/-! ### Refilling -/

theorem scan_skipFill (nb : UInt8) (r : List UInt8) (h : nb ≠ 0) :
    ((skipFill nb r).1 ≠ 0 → scan true (nb :: r) = ([], some (skipFill nb r))) ∧
    ((skipFill nb r).1 = 0 →
      scan true (nb :: r) = (0xFF :: (scan false (skipFill nb r).2).1,
        (scan false (skipFill nb r).2).2) ∨
      (scan true (nb :: r) = ([], none) ∧ (skipFill nb r).2 = [])) := by
  induction r generalizing nb with
  | nil =>
    by_cases hf : nb = 0xFF
    · subst hf; simp [skipFill, scan]
    · simp [skipFill, scan, hf, h]
  | cons c r ih =>
    by_cases hf : nb = 0xFF
    · subst hf
      have e : skipFill 0xFF (c :: r) = skipFill c r := by simp [skipFill]
      have e2 : scan true (0xFF :: c :: r) = scan true (c :: r) := by rw [scan]; simp
      rw [e, e2]
      by_cases hc : c = 0
      · subst hc
        have e3 : skipFill 0 r = (0, r) := by cases r <;> simp [skipFill]
        rw [e3]
        simp [scan]
      · exact ih c hc
    · simp [skipFill, scan, hf, h]

/-- What a single byte refill does, in terms of the specification of the byte stream. -/
theorem refillByte_spec (s : B) :
    (∃ byte rd', refillByte s = .more { bs := { s.bs with
          buffer := (s.bs.buffer <<< 8) ||| (byte.toBitVec.setWidth 64),
          bitsLeft := s.bs.bitsLeft + 8 }, rd := rd' } ∧
      (scan false s.rd = (byte :: (scan false rd').1, (scan false rd').2) ∨
        (scan false s.rd = ([], none) ∧ rd' = []))) ∨
    (∃ m rd', scan false s.rd = ([], some (m, rd')) ∧ m ≠ 0 ∧ m ≠ 0xFF ∧
      refillByte s =
        (let buffer := ((s.bs.buffer <<< 8) ||| ((0xFF : UInt8).toBitVec.setWidth 64)) >>> 8
         let bs := { s.bs with buffer := buffer, aligned :=
            if s.bs.bitsLeft ≠ 0 then shl64 buffer (64 - s.bs.bitsLeft) else s.bs.aligned }
         match Marker.fromU8 m with
         | some mk => .stop { bs := { bs with marker := some mk }, rd := rd' }
         | none => .bad { bs := bs, rd := rd' })) := by
  obtain ⟨bs, rd⟩ := s
  cases rd with
  | nil =>
    left
    refine ⟨0, [], ?_, Or.inr ⟨rfl, rfl⟩⟩
    simp [refillByte, readU8]
  | cons b r =>
    by_cases hb : b = 0xFF
    · subst hb
      have e : scan false (0xFF :: r) = scan true r := by rw [scan]; simp
      cases r with
      | nil =>
        left
        refine ⟨0xFF, [], ?_, Or.inr ⟨by simp [scan], rfl⟩⟩
        simp [refillByte, readU8]
      | cons nb r =>
        by_cases hn : nb = 0
        · subst hn
          left
          refine ⟨0xFF, r, ?_, Or.inl (by simp [scan])⟩
          simp [refillByte, readU8]
        · obtain ⟨s1, s2⟩ := scan_skipFill nb r hn
          by_cases hz : (skipFill nb r).1 = 0
          · left
            refine ⟨0xFF, (skipFill nb r).2, ?_, ?_⟩
            · simp [refillByte, readU8, hn, hz]
            · simp only [e]
              rcases s2 hz with h | ⟨h, h'⟩
              · exact Or.inl h
              · exact Or.inr ⟨h, h'⟩
          · right
            refine ⟨(skipFill nb r).1, (skipFill nb r).2, ?_, hz, ?_, ?_⟩
            · simp only [e]; exact s1 hz
            · clear s1 s2 hz
              induction r generalizing nb with
              | nil => by_cases h : nb = 0xFF <;> simp [skipFill, h]
              | cons c r ih =>
                by_cases h : nb = 0xFF
                · subst h
                  have e : skipFill 0xFF (c :: r) = skipFill c r := by simp [skipFill]
                  rw [e]
                  by_cases hc : c = 0
                  · subst hc
                    have e3 : skipFill 0 r = (0, r) := by cases r <;> simp [skipFill]
                    rw [e3]; exact (by decide : (0 : UInt8) ≠ 0xFF)
                  · exact ih c (by rw [scan]; simp) hc
                · simp [skipFill, h]
            · simp only [refillByte, readU8, if_true, ne_eq, hn, not_false_eq_true, hz,
                Nat.add_sub_cancel]
              cases Marker.fromU8 (skipFill nb r).1 <;> rfl
    · left
      refine ⟨b, r, ?_, Or.inl (by rw [scan]; simp [hb])⟩
      simp [refillByte, readU8, hb]

theorem natBits_append_byte (buf : BitVec 64) (b : UInt8) (bl : Nat) (h : bl ≤ 56) :
    natBits (bl + 8) ((buf <<< 8) ||| (b.toBitVec.setWidth 64)).toNat =
      natBits bl buf.toNat ++ natBits 8 b.toNat := by
  have hb : b.toNat < 2 ^ 8 := b.toNat_lt
  have e : ((buf <<< 8) ||| (b.toBitVec.setWidth 64)).toNat =
      (buf.toNat % 2 ^ 56) * 2 ^ 8 + b.toNat := by
    have hx : (buf <<< 8 : BitVec 64).toNat = (buf.toNat % 2 ^ 56) <<< 8 := by
      rw [BitVec.toNat_shiftLeft, Nat.shiftLeft_eq, Nat.shiftLeft_eq]; omega
    have hy : (b.toBitVec.setWidth 64).toNat = b.toNat := by
      rw [BitVec.toNat_setWidth, UInt8.toNat_toBitVec]; omega
    rw [BitVec.toNat_or, hx, hy, ← Nat.shiftLeft_add_eq_or_of_lt hb, Nat.shiftLeft_eq]
  rw [natBits_add, e]
  congr 1
  · rw [show (buf.toNat % 2 ^ 56 * 2 ^ 8 + b.toNat) / 2 ^ 8 = buf.toNat % 2 ^ 56 by omega,
      natBits_mod_le h]
  · rw [← natBits_mod 8]; congr 1; omega

theorem avail_shl (buf : BitVec 64) (bl : Nat) (h : bl ≤ 64) :
    (natBits 64 (shl64 buf (64 - bl)).toNat).take bl = natBits bl buf.toNat := by
  unfold shl64
  rcases Nat.eq_zero_or_pos bl with rfl | h0
  · simp [natBits]
  · rw [Nat.mod_eq_of_lt (by omega), natBits_shiftLeft _ _ (by omega), natBits_drop (by omega),
      show 64 - (64 - bl) = bl by omega, List.take_append_of_le_length (by simp),
      List.take_of_length_le (by simp)]

/-- The reader between two single byte refills: the aligned buffer is not up to date. -/
structure Rep' (s : B) (bits : List Bool) (tail : Option (UInt8 × List UInt8)) : Prop where
  none : s.bs.marker = none
  pre : bits <+: natBits s.bs.bitsLeft s.bs.buffer.toNat ++ bytesBits (scanData s.rd)
  atEnd : s.atEnd tail
  exact : tail ≠ Option.none →
    natBits s.bs.bitsLeft s.bs.buffer.toNat ++ bytesBits (scanData s.rd) = bits

theorem Rep'.refill {s : B} {bits tail} (n : Nat) (h : Rep' s bits tail)
    (hle : s.bs.bitsLeft + 8 * n ≤ 64) :
    ∃ s', refillBytes n s = (.ok (), s') ∧ Rep s' bits tail ∧
      (s'.bs.bitsLeft = s.bs.bitsLeft + 8 * n ∨ bits.length ≤ s'.bs.bitsLeft) ∧
      s.bs.bitsLeft ≤ s'.bs.bitsLeft ∧
      (∃ a b c, s'.bs = { s.bs with buffer := a, aligned := b, bitsLeft := s'.bs.bitsLeft, marker := c }) ∧
      (s'.bs.marker = Option.none → s'.bs.bitsLeft = s.bs.bitsLeft + 8 * n) := by
  induction n generalizing s with
  | zero =>
    have hl : s.bs.bitsLeft ≤ 64 := by omega
    refine ⟨_, rfl, ?_, Or.inl rfl, Nat.le_refl _, ⟨_, _, _, rfl⟩, fun _ => rfl⟩
    have hav : B.avail { s with bs := { s.bs with
        aligned := shl64 s.bs.buffer (64 - s.bs.bitsLeft) } } =
        natBits s.bs.bitsLeft s.bs.buffer.toNat := avail_shl _ _ hl
    refine ⟨hl, fun _ => hav, fun hm => absurd h.none hm, ?_, h.atEnd, fun _ ht => ?_⟩
    · rw [hav]
      simpa [B.unread, h.none] using h.pre
    · rw [hav]
      simpa [B.unread, h.none] using h.exact ht
  | succ n ih =>
    have hend := h.atEnd
    rw [B.atEnd, h.none] at hend
    rcases refillByte_spec s with ⟨byte, rd', e, hs⟩ | ⟨m, rd', hs, hm0, hmF, e⟩
    · simp only [refillBytes, e]
      have h2 : Rep' { bs := { s.bs with
          buffer := (s.bs.buffer <<< 8) ||| (byte.toBitVec.setWidth 64),
          bitsLeft := s.bs.bitsLeft + 8 }, rd := rd' } bits tail := by
        refine ⟨h.none, ?_, ?_, fun ht => ?_⟩
        · show bits <+: natBits (s.bs.bitsLeft + 8) _ ++ _
          rw [natBits_append_byte _ _ _ (by omega)]
          rcases hs with hs | ⟨hs, rfl⟩
          · have := h.pre
            simp only [scanData, hs] at this
            simpa [bytesBits, scanData] using this
          · have := h.pre
            simp only [scanData, hs] at this
            simp only [bytesBits, List.flatMap_nil, List.append_nil] at this
            rw [List.append_assoc]
            exact this.trans (List.prefix_append _ _)
        · simp only [B.atEnd, h.none]
          refine ⟨?_, hend.2⟩
          rw [← hend.1]
          rcases hs with hs | ⟨hs, rfl⟩
          · simp [scanEnd, hs]
          · simp [scanEnd, hs, scan]
        · show natBits (s.bs.bitsLeft + 8) _ ++ _ = bits
          rw [natBits_append_byte _ _ _ (by omega)]
          rcases hs with hs | ⟨hs, rfl⟩
          · have := h.exact ht
            simp only [scanData, hs] at this
            simpa [bytesBits, scanData] using this
          · exact absurd (by rw [← hend.1, scanEnd, hs]) ht
      obtain ⟨s', r1, r2, r3, r4, ⟨a, b, c, r5⟩, r6⟩ := ih h2 (by simp only; omega)
      simp only at r3 r4 r5 r6
      exact ⟨s', r1, r2, by omega, by omega, ⟨a, b, c, r5⟩, fun h => by have := r6 h; omega⟩
    · obtain ⟨he1, he2⟩ := hend
      have he : tail = some (m, rd') := by rw [← he1, scanEnd, hs]
      have hk := he2 m rd' he
      obtain ⟨mk, hmk⟩ := Option.isSome_iff_exists.1 hk
      simp only [hmk] at e
      simp only [refillBytes, e]
      have hbuf : natBits s.bs.bitsLeft (((s.bs.buffer <<< 8) |||
          ((0xFF : UInt8).toBitVec.setWidth 64)) >>> 8).toNat =
          natBits s.bs.bitsLeft s.bs.buffer.toNat := by
        have := natBits_append_byte s.bs.buffer 0xFF s.bs.bitsLeft (by omega)
        rw [natBits_add] at this
        have := (List.append_inj this (by simp)).1
        rw [BitVec.toNat_ushiftRight, Nat.shiftRight_eq_div_pow]
        exact this
      have hav : (natBits 64 (if s.bs.bitsLeft ≠ 0 then
          shl64 (((s.bs.buffer <<< 8) ||| ((0xFF : UInt8).toBitVec.setWidth 64)) >>> 8)
            (64 - s.bs.bitsLeft) else s.bs.aligned).toNat).take s.bs.bitsLeft =
          natBits s.bs.bitsLeft s.bs.buffer.toNat := by
        by_cases h0 : s.bs.bitsLeft = 0
        · simp [h0, natBits]
        · rw [if_pos h0, avail_shl _ _ (by omega), hbuf]
      have hpre := h.pre
      simp only [scanData, hs, bytesBits, List.flatMap_nil, List.append_nil] at hpre
      refine ⟨_, rfl, ⟨by show s.bs.bitsLeft ≤ 64; omega, fun hc => by simp at hc,
        fun _ => by show s.bs.bitsLeft ≤ 63; omega, ?_, ?_, fun hc => by simp at hc⟩, Or.inr ?_,
        Nat.le_refl _, ⟨_, _, _, rfl⟩, fun hc => by simp at hc⟩
      · simp only [B.unread, B.avail, hav]
        simpa using hpre
      · simp only [B.atEnd]
        exact ⟨m, he, hmk⟩
      · have := hpre.length_le
        simpa using this

end Zune
