import Verif.Lemmas.AcLoop
import Verif.Spec.StdTables
/-!
# Properties C18, C19 and C49: entropy coded blocks

The encoder is `Spec.dcCode`, `Spec.acSymbols`, `Spec.symbolBits` (T.81 F.1.2); `word` maps a
symbol to its code word. `Rep s bits tail` says that the reader in state `s` is about to deliver
`bits` (C15).
-/

namespace Zune
open Spec

/-- **C18, partial.** A DC difference is read back, provided that the reader either refills (fewer
than 16 bits buffered) and 16 bits hold the whole code, or already holds the whole code. Missing: the
code refills only below 16 buffered bits, which is not enough for longer codes, see
`c18_false`. -/
theorem c18_dc_partial {counts values : List Nat} {prog : Bool} {t : HuffmanTable}
    (ht : Accepted counts values true prog t) (word : Nat → List Bool) (d : Int) (pred : I32)
    (hm : (word (category d), category d) ∈ codeBook counts values)
    {s : B} {rest : List Bool} {tail} (h : Rep s (dcCode word d ++ rest) tail)
    (hready : s.bs.bitsLeft < 16 ∨ (dcCode word d).length ≤ 16 ∨
      (dcCode word d).length ≤ s.bs.bitsLeft) :
    ∃ s', decodeDc t pred s = (.ok (pred + BitVec.ofInt 32 d), s') ∧ Rep s' rest tail := by
  have h15 := dc_symbol_le ht hm
  obtain ⟨hw1, hw2, -⟩ := word_length ht hm
  have hlen : (dcCode word d).length = (word (category d)).length + category d := by
    simp [dcCode]
  have key : ∃ s1, refillIfBelow 16 s = (.ok (), s1) ∧ Rep s1 (dcCode word d ++ rest) tail ∧
      (dcCode word d).length ≤ s1.bs.bitsLeft := by
    by_cases hl : s.bs.bitsLeft < 16
    · obtain ⟨s1, r1, r2, r3, -⟩ := h.refill
      refine ⟨s1, by rw [refillIfBelow, if_pos hl, r1], r2, ?_⟩
      rcases r3 with r3 | r3
      · omega
      · simp only [List.length_append] at r3; omega
    · exact ⟨s, by rw [refillIfBelow, if_neg hl], h, by omega⟩
  obtain ⟨s1, e1, r1, hl1⟩ := key
  have r1' : Rep s1 (word (category d) ++ (magnitudeBits d ++ rest)) tail := by
    rw [← List.append_assoc]; exact r1
  obtain ⟨q1, q2⟩ := Rep.decodeSymbol ht hm r1' (by omega)
  rw [decodeDc_eq, M.bind_ok e1, M.bind_ok q1]
  by_cases hd : d = 0
  · subst hd
    refine ⟨_, ?_, by simpa [magnitudeBits, natBits] using q2⟩
    rw [if_neg (by simp)]
    rfl
  · have hc := (category_spec d hd).1
    obtain ⟨s2, q3, q4, -⟩ := q2.getBits (w := magnitudeBits d)
      (by simp only [BitStream.drop, magnitudeBits_length]; omega) (by simp; omega)
    refine ⟨s2, ?_, q4⟩
    rw [magnitudeBits_length] at q3
    rw [if_pos (by omega), M.bind_ok q3, huffExtend_magnitude d hd h15]
    rfl

/-- The table K.3 of T.81 is accepted. -/
theorem lumDc_accepted : ∃ t, Accepted lumDcCounts lumDcValues true false t := by
  obtain ⟨t, ht⟩ := (c10_accepted_iff lumDcCounts lumDcValues true false rfl).2
    ⟨by unfold CodeExists; decide +kernel, by decide +kernel⟩
  exact ⟨t, rfl, by decide, by decide +kernel, by decide +kernel, ht⟩

theorem lumAc_accepted : ∃ t, Accepted lumAcCounts lumAcValues false false t := by
  obtain ⟨t, ht⟩ := (c10_accepted_iff lumAcCounts lumAcValues false false rfl).2
    ⟨by unfold CodeExists; decide +kernel, by simp⟩
  exact ⟨t, rfl, by decide, by decide +kernel, by decide +kernel, ht⟩

/-- The word of a symbol in a code book. -/
def bookWord (counts values : List Nat) (v : Nat) : List Bool :=
  (((codeBook counts values).find? fun p => p.2 == v).map (·.1)).getD []

/-- The hypotheses of `c18_dc_partial` hold for table K.3, the difference -5 and a new reader:
`100 010`, then anything. -/
example : ∃ t s, Accepted lumDcCounts lumDcValues true false t ∧
    (bookWord lumDcCounts lumDcValues (category (-5)), category (-5)) ∈
      codeBook lumDcCounts lumDcValues ∧
    Rep s (dcCode (bookWord lumDcCounts lumDcValues) (-5) ++ [true, true]) none ∧
    s.bs.bitsLeft < 16 := by
  obtain ⟨t, ht⟩ := lumDc_accepted
  refine ⟨t, { bs := BitStream.new, rd := [0b10001011] }, ht, by decide +kernel, ?_, ?_⟩
  · exact rep_new [0b10001011] BitStream.new rfl rfl (by rw [show scanEnd _ = none by decide +kernel]; simp)
  · decide

/-- A reader over the bytes `00 00 FE 80 80 ..` from which 16 bits have been read. -/
def c18State : B :=
  ((do refill; let _ ← getBitsM 16; pure () : M B Unit)
    { bs := BitStream.new, rd := [0, 0, 0xFE, 0x80, 0x80, 0x40, 0, 0] }).2

/-- **C18 is false in general.** With table K.3 of T.81, 16 bits buffered and the difference 514
(category 10, 18 bits) the decoder returns something else. -/
theorem c18_false : ∃ (t : HuffmanTable) (rest : List Bool),
    HuffmanTable.new (0 :: lumDcCounts) lumDcValues true false = some t ∧
    Rep c18State (dcCode (bookWord lumDcCounts lumDcValues) 514 ++ rest) none ∧
    (decodeDc t 0 c18State).1 ≠ .ok (BitVec.ofInt 32 514) := by
  refine ⟨_, [], rfl, ?_, ?_⟩
  · have h0 := rep_new [0, 0, 0xFE, 0x80, 0x80, 0x40, 0, 0] BitStream.new rfl rfl (by rw [show scanEnd _ = none by decide +kernel]; simp)
    obtain ⟨s1, r1, r2, r3, -⟩ := h0.refill
    have h1 : Rep s1 (List.replicate 16 false ++ dcCode (bookWord lumDcCounts lumDcValues) 514) none :=
      r2.mono (by decide +kernel)
    have hl : 16 ≤ s1.bs.bitsLeft := by
      have : s1 = (refill { bs := BitStream.new, rd := [0, 0, 0xFE, 0x80, 0x80, 0x40, 0, 0] }).2 := by
        rw [r1]
      rw [this]; decide +kernel
    obtain ⟨s2, q1, q2, -⟩ := h1.getBits (by simpa using hl) (by simp)
    have : c18State = s2 := by
      rw [c18State, M.bind_ok r1]
      rw [List.length_replicate] at q1
      rw [M.bind_ok q1]; rfl
    rw [this, List.append_nil]
    exact q2
  · decide +kernel

/-- C19, and what is buffered after the block. -/
theorem block_round_trip {dcCounts dcValues acCounts acValues : List Nat} {dp ap : Bool}
    {dc ac : HuffmanTable} (hdc : Accepted dcCounts dcValues true dp dc)
    (hac : Accepted acCounts acValues false ap ac)
    (dcWord acWord : Nat → List Bool) (diff : Int) (coefs : List Int) (pred : I32)
    (block : List I16) (hlen : coefs.length = 63) (hblock : block = List.replicate 64 0)
    (hsize : ∀ c ∈ coefs, category c ≤ 15)
    (hdw : (dcWord (category diff), category diff) ∈ codeBook dcCounts dcValues)
    (haw : ∀ p ∈ acSymbols 0 coefs, (acWord p.1, p.1) ∈ codeBook acCounts acValues)
    (hsafe : ∀ p ∈ acSymbols 0 coefs, 6 ≤ p.1 % 16 → 9 < (acWord p.1).length + p.1 % 16)
    {s : B} {rest : List Bool} {tail}
    (h : Rep s (dcCode dcWord diff ++ symbolBits acWord (acSymbols 0 coefs) ++ rest) tail)
    (hready : s.bs.bitsLeft < 16 ∨ (dcCode dcWord diff).length ≤ 16 ∨
      (dcCode dcWord diff).length ≤ s.bs.bitsLeft) :
    ∃ block' s', decodeMcuBlock dc ac block pred s =
        (.ok block', pred + BitVec.ofInt 32 diff, s') ∧
      block'.length = 64 ∧
      (∀ z, zigzag[0]? = some z →
        block'[z]? = some ((pred + BitVec.ofInt 32 diff).setWidth 16)) ∧
      (∀ k c z, coefs[k]? = some c → zigzag[k + 1]? = some z →
        block'[z]? = some (BitVec.ofInt 16 c)) ∧
      Rep s' rest tail ∧ Late s' (lastBits acWord 32 (acSymbols 0 coefs)) := by
  subst hblock
  obtain ⟨L, hL⟩ : ∃ L, ac.acLookup = some L := by
    obtain ⟨-, -, -, -, hl, -, -⟩ := table_parts hac.len hac.table
    exact ⟨_, hl⟩
  rw [List.append_assoc] at h
  obtain ⟨s1, e1, r1⟩ := c18_dc_partial hdc dcWord diff pred hdw h hready
  let p := pred + BitVec.ofInt 32 diff
  let tgt : Nat → I16 := fun k =>
    if k = 0 then p.setWidth 16 else BitVec.ofInt 16 (coefs.getD (k - 1) 0)
  have hz0 : zigzag[0]? = some 0 := by decide +kernel
  have hf0 : Filled tgt (List.replicate 64 0) 0 := by
    refine ⟨by rw [List.length_replicate], fun k z hk => ?_⟩
    have := zigzag_lt _ (List.mem_of_getElem? hk)
    rw [if_neg (by omega), List.getElem?_replicate, if_pos this]
  have hf1 := hf0.set (p.setWidth 16) hz0 (by simp [tgt])
  obtain ⟨b, s2, e2, f2, r2, l2⟩ := ac_block hac hL acWord rest coefs s1 _ 1 0 64 32 (by omega)
    (fun _ => by omega) (by omega)
    hf1 (fun k hk => by omega)
    (fun i c hi => by
      have h0 : ¬ (1 + 0 + i = 0) := by omega
      have h1 : 1 + 0 + i - 1 = i := by omega
      simp only [tgt, if_neg h0, h1, List.getD, hi, Option.getD_some])
    hsize haw hsafe r1
  refine ⟨b, s2, ?_, f2.1, ?_, ?_, r2, l2⟩
  · rw [decodeMcuBlock]
    simp only [hL, e1]
    have hset : setBlock (List.replicate 64 0) 0 (p.setWidth 16) s1 =
        (.ok ((List.replicate 64 0).set 0 (p.setWidth 16)), s1) := by
      rw [setBlock, if_pos (by rw [List.length_replicate]; omega)]
    have hun : M.unwrap ac.acLookup s1 = (.ok L, s1) := by rw [hL]; rfl
    have : decodeAc ac p (List.replicate 64 0) s1 = (.ok b, s2) := by
      rw [decodeAc, M.bind_ok hun, M.bind_ok hset, e2]
    show ((decodeAc ac p (List.replicate 64 0) s1).1, p, (decodeAc ac p (List.replicate 64 0) s1).2) = _
    rw [this]
  · intro z hz
    have := f2.2 0 z hz
    simpa [tgt] using this
  · intro k c z hk hz
    have hk63 : k < 63 := by
      have := (List.getElem?_eq_some_iff.1 hk).1; omega
    have := f2.2 (k + 1) z hz
    rw [if_pos (by omega)] at this
    simp only [tgt, List.getD, Nat.add_sub_cancel, hk] at this
    simpa using this

/-- **C19, partial.** A block (DC difference and 63 AC coefficients in zig-zag order) written by the
encoder is read back: coefficient `k` ends up at the natural position of the `k`-th cell of the
zig-zag path, the prediction is updated, and the reader stands right behind the block.

Conditions: the needed symbols have codes; coefficients have at most 15 bits; the DC code is one
that `c18_dc_partial` covers; and no used AC symbol of size 6 or more has a code word that, with
its additional bits, fits in 9 bits (the excluded case of C13, `c13_false_magnitude`). Neither of
the standard tables contains such a symbol. Missing: tables that do, see `c19_false`. -/
theorem c19_round_trip_partial {dcCounts dcValues acCounts acValues : List Nat} {dp ap : Bool}
    {dc ac : HuffmanTable} (hdc : Accepted dcCounts dcValues true dp dc)
    (hac : Accepted acCounts acValues false ap ac)
    (dcWord acWord : Nat → List Bool) (diff : Int) (coefs : List Int) (pred : I32)
    (block : List I16) (hlen : coefs.length = 63) (hblock : block = List.replicate 64 0)
    (hsize : ∀ c ∈ coefs, category c ≤ 15)
    (hdw : (dcWord (category diff), category diff) ∈ codeBook dcCounts dcValues)
    (haw : ∀ p ∈ acSymbols 0 coefs, (acWord p.1, p.1) ∈ codeBook acCounts acValues)
    (hsafe : ∀ p ∈ acSymbols 0 coefs, 6 ≤ p.1 % 16 → 9 < (acWord p.1).length + p.1 % 16)
    {s : B} {rest : List Bool} {tail}
    (h : Rep s (dcCode dcWord diff ++ symbolBits acWord (acSymbols 0 coefs) ++ rest) tail)
    (hready : s.bs.bitsLeft < 16 ∨ (dcCode dcWord diff).length ≤ 16 ∨
      (dcCode dcWord diff).length ≤ s.bs.bitsLeft) :
    ∃ block' s', decodeMcuBlock dc ac block pred s =
        (.ok block', pred + BitVec.ofInt 32 diff, s') ∧
      block'.length = 64 ∧
      (∀ z, zigzag[0]? = some z →
        block'[z]? = some ((pred + BitVec.ofInt 32 diff).setWidth 16)) ∧
      (∀ k c z, coefs[k]? = some c → zigzag[k + 1]? = some z →
        block'[z]? = some (BitVec.ofInt 16 c)) ∧
      Rep s' rest tail := by
  obtain ⟨b, s', r1, r2, r3, r4, r5, -⟩ := block_round_trip hdc hac dcWord acWord diff coefs pred block
    hlen hblock hsize hdw haw hsafe h hready
  exact ⟨b, s', r1, r2, r3, r4, r5⟩

/-- The condition on long magnitudes holds for every code of tables K.5 and K.6. -/
theorem c19_safe_lum : ∀ p ∈ codeBook lumAcCounts lumAcValues,
    6 ≤ p.2 % 16 → 9 < p.1.length + p.2 % 16 := by decide +kernel

theorem c19_safe_chroma : ∀ p ∈ codeBook chromaAcCounts chromaAcValues,
    6 ≤ p.2 % 16 → 9 < p.1.length + p.2 % 16 := by decide +kernel

/-- A block with runs, a run above 16, large and negative values: the hypotheses of
`c19_round_trip_partial` are met with tables K.3 and K.5. -/
def c19Coefs : List Int :=
  [5, 0, -3, 0, 0, 1] ++ List.replicate 20 0 ++ [700, -1] ++ List.replicate 35 0

example : c19Coefs.length = 63 ∧ (∀ c ∈ c19Coefs, category c ≤ 15) ∧
    (∀ p ∈ acSymbols 0 c19Coefs, (bookWord lumAcCounts lumAcValues p.1, p.1) ∈
      codeBook lumAcCounts lumAcValues) ∧
    (∀ p ∈ acSymbols 0 c19Coefs, 6 ≤ p.1 % 16 →
      9 < (bookWord lumAcCounts lumAcValues p.1).length + p.1 % 16) ∧
    (symbolBits (bookWord lumAcCounts lumAcValues) (acSymbols 0 c19Coefs)).length ≥ 60 := by
  decide +kernel

/-- Counts and symbols of an AC table with the code `0` for a magnitude of 6 bits and `10` for the end
of a block. -/
def c19Counts : List Nat := [1, 1] ++ List.replicate 14 0
def c19Values : List Nat := 6 :: List.replicate 255 0

/-- **C19 is false in general.** With this table the AC coefficient 63 comes back as -1: the code
word and the magnitude take 7 bits together, so that the combined table of C13 is used, which cannot
hold it. -/
theorem c19_false : ∃ (dc ac : HuffmanTable) (s : B),
    Accepted c19Counts (List.replicate 256 0) true false dc ∧ Accepted c19Counts c19Values false false ac ∧
    Rep s (dcCode (bookWord c19Counts (List.replicate 256 0)) 0 ++
      symbolBits (bookWord c19Counts c19Values) (acSymbols 0 (63 :: List.replicate 62 0))) none ∧
    (∀ p ∈ acSymbols 0 (63 :: List.replicate 62 0), (bookWord c19Counts c19Values p.1, p.1) ∈
      codeBook c19Counts c19Values) ∧
    (decodeMcuBlock dc ac (List.replicate 64 0) 0 s).1 = .ok (0 :: -1 :: List.replicate 62 0) := by
  refine ⟨_, _, { bs := BitStream.new, rd := [0b00111111, 0b10000000, 0, 0, 0, 0, 0, 0] },
    ⟨by decide, by decide, by decide +kernel, by decide +kernel, rfl⟩,
    ⟨by decide, by decide, by decide +kernel, by decide +kernel, rfl⟩, ?_, by decide +kernel, ?_⟩
  · exact (rep_new [0b00111111, 0b10000000, 0, 0, 0, 0, 0, 0] BitStream.new rfl rfl
      (by rw [show scanEnd _ = none by decide +kernel]; simp)).mono (by decide +kernel)
  · decide +kernel

end Zune
