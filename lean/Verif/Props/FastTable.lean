import Verif.Props.Huffman
/-!
# C13: when exactly the combined table is right
-/

namespace Zune
open Spec

namespace Spec

/-- What reading a run/size symbol and its magnitude bits gives (T.81 F.2.2.2): the number of zero
coefficients, the value behind them and the number of bits. A symbol of size 0 ends the block (63
more coefficients) unless its run is 15, which stands for 16 zeros, the last one as value. This is
also what the path of the decoder without the combined table does. -/
def acMeaning (w : List Bool) (rs : Nat) (extra : List Bool) : Nat × Int × Nat :=
  if rs % 16 = 0 then (if rs / 16 = 15 then 15 else 63, 0, w.length)
  else (rs / 16, extend (rs % 16) (bitsNat extra), w.length + extra.length)

end Spec

/-- The packing of a value, a run and a length into 16 bits keeps six bits of the value. -/
theorem fastPack_wrap (k : Int) (run n : Nat) (hr : run < 64) (hn : n < 16) :
    let e : I16 := (BitVec.ofInt 16 k <<< 10) + BitVec.ofNat 16 (run <<< 4) + BitVec.ofNat 16 n
    ((e >>> 4) &&& 63).toNat = run ∧ (e.sshiftRight 10).toInt = (k + 32) % 64 - 32 ∧
      (e &&& 15).toNat = n := by
  intro e
  have he : e.toNat = (k % 64).toNat * 1024 + run * 16 + n := by
    simp only [e, BitVec.toNat_add, BitVec.toNat_shiftLeft, BitVec.toNat_ofNat, BitVec.toNat_ofInt,
      Nat.shiftLeft_eq]
    omega
  refine ⟨?_, ?_, ?_⟩
  · rw [BitVec.toNat_and, BitVec.toNat_ushiftRight, he, show (63 : I16).toNat = 2 ^ 6 - 1 from rfl,
      Nat.and_two_pow_sub_one_eq_mod, Nat.shiftRight_eq_div_pow]
    omega
  · rw [BitVec.toInt_sshiftRight, Int.shiftRight_eq_div_pow, BitVec.toInt_eq_toNat_cond, he]
    split <;> omega
  · rw [BitVec.toNat_and, he, show (15 : I16).toNat = 2 ^ 4 - 1 from rfl,
      Nat.and_two_pow_sub_one_eq_mod]
    omega

/-- What an entry says: the run, the value and the number of bits (`bitstream.rs:decode_mcu_block`). -/
def fastMeaning (e : I16) : Nat × Int × Nat :=
  (((e >>> 4) &&& 63).toNat, (e.sshiftRight 10).toInt, (e &&& 15).toNat)

theorem fastAcEntry_zero_size (i rs len : Nat) (hrs : rs < 256) (hlen : len < 16)
    (h0 : rs % 16 = 0) :
    fastMeaning (fastAcEntry i rs len false) = (if rs / 16 = 0 then 63 else rs / 16, 0, len) := by
  have e1 : rs &&& 15 = rs % 16 := Nat.and_two_pow_sub_one_eq_mod rs 4
  have e2 : rs >>> 4 &&& 15 = rs / 16 := by
    rw [show (15 : Nat) = 2 ^ 4 - 1 from rfl, Nat.and_two_pow_sub_one_eq_mod,
      Nat.shiftRight_eq_div_pow]; omega
  have key : fastAcEntry i rs len false = (BitVec.ofInt 16 0 <<< 10) +
      BitVec.ofNat 16 ((if rs / 16 = 0 then 63 else rs / 16) <<< 4) + BitVec.ofNat 16 len := by
    unfold fastAcEntry
    simp only [e1, e2]
    rw [if_pos (by simp [h0])]
    simp
  obtain ⟨p1, p2, p3⟩ := fastPack_wrap 0 (if rs / 16 = 0 then 63 else rs / 16) len
    (by split <;> omega) hlen
  rw [← key] at p1 p2 p3
  rw [fastMeaning, p1, p2, p3]
  rfl

theorem fastAcEntry_size (i rs len : Nat) (prog : Bool) (hrs : rs < 256) (hlen : 1 ≤ len)
    (hm : rs % 16 ≠ 0) (h9 : len + rs % 16 ≤ 9) :
    let k := extend (rs % 16) (i / 2 ^ (9 - len - rs % 16) % 2 ^ (rs % 16))
    (-128 ≤ k ∧ k ≤ 127 → fastMeaning (fastAcEntry i rs len prog) =
      (rs / 16, (k + 32) % 64 - 32, len + rs % 16)) ∧
    (¬ (-128 ≤ k ∧ k ≤ 127) → fastAcEntry i rs len prog = 0) := by
  intro k
  have e1 : rs &&& 15 = rs % 16 := Nat.and_two_pow_sub_one_eq_mod rs 4
  have e2 : rs >>> 4 &&& 15 = rs / 16 := by
    rw [show (15 : Nat) = 2 ^ 4 - 1 from rfl, Nat.and_two_pow_sub_one_eq_mod,
      Nat.shiftRight_eq_div_pow]; omega
  have e3 : ((i <<< len) &&& 511) >>> (HUFF_LOOKAHEAD - rs % 16) =
      i / 2 ^ (9 - len - rs % 16) % 2 ^ (rs % 16) := by
    rw [show (511 : Nat) = 2 ^ 9 - 1 from rfl, Nat.and_two_pow_sub_one_eq_mod,
      Nat.shiftRight_eq_div_pow, Nat.shiftLeft_eq, HUFF_LOOKAHEAD]
    generalize rs % 16 = m at *
    obtain ⟨d, hd⟩ : ∃ d, 9 = len + m + d := ⟨9 - (len + m), by omega⟩
    rw [show 9 - len - m = d by omega, show 9 - m = len + d by omega, hd,
      show 2 ^ (len + m + d) = (2 ^ m * 2 ^ d) * 2 ^ len by ring, Nat.mul_mod_mul_right,
      show 2 ^ (len + d) = 2 ^ len * 2 ^ d by ring, ← Nat.div_div_eq_div_mul,
      Nat.mul_div_cancel _ (by positivity), Nat.mul_comm (2 ^ m), Nat.mod_mul_right_div_self]
  have key : fastAcEntry i rs len prog = if -128 ≤ k ∧ k ≤ 127 then (BitVec.ofInt 16 k <<< 10) +
      BitVec.ofNat 16 ((rs / 16) <<< 4) + BitVec.ofNat 16 (len + rs % 16) else 0 := by
    unfold fastAcEntry
    simp only [e1, e2, e3, Nat.one_shiftLeft, extend_model]
    rw [if_neg (by omega), if_pos ⟨by omega, by rw [HUFF_LOOKAHEAD]; omega⟩]
  constructor
  · intro h
    rw [if_pos h] at key
    obtain ⟨p1, p2, p3⟩ := fastPack_wrap k (rs / 16) (len + rs % 16) (by omega) (by omega)
    rw [← key] at p1 p2 p3
    rw [fastMeaning, p1, p2, p3]
  · intro h
    rw [key, if_neg h]

/-- The entry that belongs to a code word at the start of the window: the one computed from its
symbol, or 0 for the last of 256 code words. -/
theorem fast_entry_of_word {counts values : List Nat} {prog : Bool} {t : HuffmanTable}
    (ht : Accepted counts values false prog t) (L : List I16) (hL : t.acLookup = some L)
    (w9 : Nat) (hw : w9 < 512) (w : List Bool) (rs : Nat) (hm : (w, rs) ∈ codeBook counts values)
    (hpre : w <+: natBits 9 w9) :
    1 ≤ w.length ∧ w.length ≤ 9 ∧ rs < 256 ∧
      (L[w9]? = some (fastAcEntry w9 rs w.length prog) ∨ L[w9]? = some 0) := by
  have hp := lengths_sorted counts ht.len
  have hb := lengths_bound counts ht.len
  have hll := lengths_length counts
  have hsum := ht.sum
  have hvl := ht.vlen
  obtain ⟨hK, -, -, -, hac, -, -⟩ := table_parts ht.len ht.table
  have hL' : L = genFastAc (entriesOf (lengths counts) values) prog := by
    rw [hL] at hac; exact Option.some.inj hac
  have hq : w9 * 128 / 128 = w9 := by omega
  obtain ⟨-, g1, g2⟩ := genFastAc_spec hp hK (values := values) (by omega) prog (w9 * 128)
    (by omega)
  rw [← hL', hq] at g1 g2
  obtain ⟨k, hk, hkv, rfl, rfl⟩ := (codeBook_mem ht.len).1 hm
  have hb1 := (hb _ (List.getElem_mem hk)).1
  have hrs : values[k] < 256 := ht.vb _ (List.getElem_mem _)
  have h9 : (lengths counts)[k] ≤ 9 := by
    have := hpre.length_le
    simpa using this
  have hc : Covers (lengths counts) (w9 * 128) k := by
    have e : natBits 9 w9 <+: natBits 16 (w9 * 128) := by
      rw [natBits_prefix (by omega) (by omega) (by omega)]; omega
    have := (word_prefix ht.len hK hk 16 (w9 * 128) (by omega) (by omega)).1 (hpre.trans e)
    simpa using this
  rw [natBits_length]
  refine ⟨hb1, h9, hrs, ?_⟩
  by_cases h255 : k < 255
  · exact .inl (g1 k hk h9 hc h255)
  · refine .inr (g2 ?_)
    intro j hj hj9 hj255 hcj
    have := Covers.unique hcj hc
    omega

/-- **C13 (partial): exactly when the combined table is right.** For every accepted AC table, every
code word and every magnitude bits behind it: if the entry for a 9 bit window that starts with them
is used (that is, not zero), then it says what decoding the symbol and extending the bits gives if
and only if the symbol has size 0 and run 0 or 15, or the value has six bits (-32 to 31). Otherwise
the run (size 0) or the upper bits of the value are lost, as the theorem states. -/
theorem c13_exact_partial {counts values : List Nat} {prog : Bool} {t : HuffmanTable}
    (ht : Accepted counts values false prog t) (L : List I16) (hL : t.acLookup = some L)
    (w9 : Nat) (hw : w9 < 512) (w extra : List Bool) (rs : Nat)
    (hm : (w, rs) ∈ codeBook counts values) (hx : extra.length = rs % 16)
    (hpre : w ++ extra <+: natBits 9 w9) :
    ∃ e, L[w9]? = some e ∧ (e ≠ 0 →
      (fastMeaning e = acMeaning w rs extra ↔
        rs = 0x00 ∨ rs = 0xF0 ∨
          rs % 16 ≠ 0 ∧ -32 ≤ extend (rs % 16) (bitsNat extra) ∧
            extend (rs % 16) (bitsNat extra) ≤ 31) ∧
      (rs % 16 = 0 → fastMeaning e = (if rs = 0 then 63 else rs / 16, 0, w.length)) ∧
      (rs % 16 ≠ 0 → fastMeaning e =
        (rs / 16, (extend (rs % 16) (bitsNat extra) + 32) % 64 - 32, w.length + extra.length))) := by
  obtain ⟨h1, h9, hrs, he⟩ := fast_entry_of_word ht L hL w9 hw w rs hm
    ((List.prefix_append _ _).trans hpre)
  rcases he with he | he
  · refine ⟨_, he, fun hne => ?_⟩
    have hl := hpre.length_le
    rw [natBits_length, List.length_append, hx] at hl
    by_cases h0 : rs % 16 = 0
    · have hprog : prog = false := by
        cases prog with
        | false => rfl
        | true =>
          have e1 : rs &&& 15 = rs % 16 := Nat.and_two_pow_sub_one_eq_mod rs 4
          exact absurd (by unfold fastAcEntry; simp [e1, h0]) hne
      subst hprog
      have hv := fastAcEntry_zero_size w9 rs w.length hrs (by omega) h0
      refine ⟨?_, fun _ => ?_, fun h => absurd h0 h⟩
      · rw [hv, acMeaning, if_pos h0]
        by_cases hr : rs / 16 = 15
        · rw [if_neg (by omega), if_pos hr, hr]
          simp only [true_iff]
          omega
        · by_cases hr0 : rs / 16 = 0
          · rw [if_pos hr0, if_neg hr]
            simp only [true_iff]
            omega
          · rw [if_neg hr0, if_neg hr]
            simp only [Prod.mk.injEq, and_true]
            omega
      · rw [hv]
        by_cases hr0 : rs = 0
        · rw [if_pos (by omega), if_pos hr0]
        · rw [if_neg (by omega), if_neg hr0]
    · obtain ⟨f1, f2⟩ := fastAcEntry_size w9 rs w.length prog hrs h1 h0 hl
      have hbits : w9 / 2 ^ (9 - w.length - rs % 16) % 2 ^ (rs % 16) = bitsNat extra := by
        have : extra = ((natBits 9 w9).drop w.length).take (rs % 16) := by
          obtain ⟨tl, htl⟩ := hpre
          rw [← htl, List.append_assoc, List.drop_left, ← hx, List.take_left]
        rw [this, natBits_drop h9, natBits_take (by omega), bitsNat_natBits]
      rw [hbits] at f1 f2
      have hr : -128 ≤ extend (rs % 16) (bitsNat extra) ∧
          extend (rs % 16) (bitsNat extra) ≤ 127 := by
        by_contra hcon
        exact hne (f2 hcon)
      have hv := f1 hr
      rw [← hx] at hv
      refine ⟨?_, fun h => absurd h h0, fun _ => by rw [hv, hx]⟩
      rw [hv, acMeaning, if_neg h0, hx]
      simp only [Prod.mk.injEq, true_and, and_true]
      omega
  · exact ⟨0, he, fun h => absurd rfl h⟩

/-- In other words: the entries that are used are right exactly for the sizes 1 to 5, the symbols
0x00 and 0xF0, and for the value -32, the only one of size 6 with six bits. -/
theorem c13_sizes_partial {counts values : List Nat} {prog : Bool} {t : HuffmanTable}
    (ht : Accepted counts values false prog t) (L : List I16) (hL : t.acLookup = some L)
    (w9 : Nat) (hw : w9 < 512) (w extra : List Bool) (rs : Nat)
    (hm : (w, rs) ∈ codeBook counts values) (hx : extra.length = rs % 16)
    (hpre : w ++ extra <+: natBits 9 w9) (e : I16) (he : L[w9]? = some e) (hne : e ≠ 0) :
    fastMeaning e = acMeaning w rs extra ↔
      rs = 0x00 ∨ rs = 0xF0 ∨ (1 ≤ rs % 16 ∧ rs % 16 ≤ 5) ∨
        (rs % 16 = 6 ∧ extra = [false, true, true, true, true, true]) := by
  obtain ⟨e', he', h⟩ := c13_exact_partial ht L hL w9 hw w extra rs hm hx hpre
  rw [he] at he'
  obtain rfl := Option.some.inj he'
  rw [(h hne).1]
  refine or_congr Iff.rfl (or_congr Iff.rfl ?_)
  have hlt : bitsNat extra < 2 ^ (rs % 16) := by
    rw [← hx]; exact bitsNat_lt extra
  have h16 : rs % 16 < 16 := Nat.mod_lt _ (by omega)
  have h6 : rs % 16 = 6 → (extra = [false, true, true, true, true, true] ↔ bitsNat extra = 31) := by
    intro h6
    rw [h6] at hx
    constructor
    · rintro rfl; rfl
    · intro hb
      have : natBits extra.length (bitsNat extra) = extra := natBits_bitsNat extra
      rw [hx, hb] at this
      rw [← this]; rfl
  unfold extend
  by_cases c6 : rs % 16 = 6
  · rw [h6 c6]
    rw [c6] at hlt ⊢
    norm_num at hlt ⊢
    split <;> omega
  · have hcases : rs % 16 ≤ 5 ∨ 7 ≤ rs % 16 := by omega
    generalize rs % 16 = m at *
    generalize bitsNat extra = b at *
    interval_cases m <;> norm_num at hlt ⊢ <;> (try split) <;> omega

/-- Both sides of `c13_sizes_partial` occur: with the code `0` for symbol 0x06 the bits
`0 011111` are read as -32, which is right, and the bits `0 111111` as -1 instead of 63. -/
example : ∃ (t : HuffmanTable) (L : List I16),
    Accepted (oneCode 0x06).1 (oneCode 0x06).2 false false t ∧ t.acLookup = some L ∧
    L[0b001111100]? = some 0x8007#16 ∧ L[0b011111100]? = some 0xFC07#16 := by
  refine ⟨_, _, ⟨rfl, by decide, by decide +kernel, by decide +kernel, rfl⟩, rfl, ?_, ?_⟩ <;>
    decide +kernel

example : ([false], 0x06) ∈ codeBook (oneCode 0x06).1 (oneCode 0x06).2 ∧
    [false] ++ [false, true, true, true, true, true] <+: natBits 9 0b001111100 ∧
    [false] ++ [true, true, true, true, true, true] <+: natBits 9 0b011111100 ∧
    fastMeaning 0x8007#16 = (0, -32, 7) ∧
    acMeaning [false] 0x06 [false, true, true, true, true, true] = (0, -32, 7) ∧
    fastMeaning 0xFC07#16 = (0, -1, 7) ∧
    acMeaning [false] 0x06 [true, true, true, true, true, true] = (0, 63, 7) := by
  refine ⟨?_, ?_, ?_, ?_, ?_, ?_, ?_⟩ <;> decide +kernel

end Zune
