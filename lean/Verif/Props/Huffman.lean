import Verif.Lemmas.FastAc
import Mathlib.Tactic.IntervalCases
/-!
# Properties C10 to C13: Huffman tables

The specification is `Spec.codeBook`: the canonical code of T.81 Annex C as a list of bit strings
with their symbols.
-/

namespace Zune
open Spec

/-- **C10.** A table is accepted exactly when the canonical code assigns every symbol a number that
fits its length and is not all ones, and, for DC tables, no symbol exceeds 15. -/
theorem c10_accepted_iff (counts values : List Nat) (isDc prog : Bool) (h : counts.length = 16) :
    (∃ t, HuffmanTable.new (0 :: counts) values isDc prog = some t) ↔
      CodeExists counts ∧ (isDc = true → ∀ v ∈ values.take counts.sum, v ≤ 15) := by
  rw [codeExists_iff counts h]
  have e : (isDc && (values.take (lengths counts).length).any (fun s => s > 15)) = false ↔
      (isDc = true → ∀ v ∈ values.take counts.sum, v ≤ 15) := by
    rw [lengths_length]
    cases isDc <;> simp
  constructor
  · rintro ⟨t, ht⟩
    obtain ⟨h1, h2, -⟩ := table_parts h ht
    exact ⟨h1, e.1 h2⟩
  · rintro ⟨h1, h2⟩
    exact table_accept h h1 (e.2 h2)

/-- The luminance DC table of T.81 table K.3 is accepted. -/
example : ∃ t, HuffmanTable.new (0 :: [0, 1, 5, 1, 1, 1, 1, 1, 1, 0, 0, 0, 0, 0, 0, 0])
    ([0, 1, 2, 3, 4, 5, 6, 7, 8, 9, 10, 11] ++ List.replicate 244 0) true false = some t := by
  rw [c10_accepted_iff _ _ _ _ rfl]
  exact ⟨by unfold CodeExists; decide +kernel, by decide +kernel⟩

/-- Three codes of length one cannot exist. -/
example : ¬ ∃ t, HuffmanTable.new (0 :: [3, 0, 0, 0, 0, 0, 0, 0, 0, 0, 0, 0, 0, 0, 0, 0])
    (List.replicate 256 0) false false = some t := by
  rw [c10_accepted_iff _ _ _ _ rfl]
  intro ⟨h, _⟩
  have := h (1, 2) (by decide +kernel)
  simp at this

/-- **C11.** Reading a symbol with an accepted table: the one code word that starts the 64 buffered
bits is used up and its symbol returned; when no code word does, the call fails and the reader is
unchanged. This covers the 9 bit lookup as well as the slow path. -/
theorem c11_decode_symbol {counts values : List Nat} {isDc prog : Bool} {t : HuffmanTable}
    (ht : Accepted counts values isDc prog t) (s : B) :
    (∀ w v, (w, v) ∈ codeBook counts values → w <+: natBits 64 s.bs.aligned.toNat →
      decodeSymbol t s = (.ok v, { s with bs := s.bs.drop w.length })) ∧
    ((∀ p ∈ codeBook counts values, ¬ p.1 <+: natBits 64 s.bs.aligned.toNat) →
      decodeSymbol t s = (.err .huffmanDecode, s)) := by
  obtain ⟨h1, h2⟩ := decodeSymbol_window ht.len ht.sum ht.vlen ht.vb ht.table s
  have hK := (table_parts ht.len ht.table).1
  have ha := s.bs.aligned.isLt
  constructor
  · intro w v hm hpre
    obtain ⟨k, hk, hv, rfl, rfl⟩ := (codeBook_mem ht.len).1 hm
    rw [word_prefix ht.len hK hk 64 _ (by omega) ha] at hpre
    rw [h1 k hk hv hpre, natBits_length]; rfl
  · intro hno
    apply h2
    by_contra hlt
    obtain ⟨k, hk, hc⟩ := covers_exists (lengths counts) (s.bs.aligned.toNat / 2 ^ 48) (by omega)
    have hl := lengths_length counts
    have hs := ht.sum
    have hvl := ht.vlen
    apply hno _ ((codeBook_mem (values := values) ht.len).2 ⟨k, hk, by omega, rfl, rfl⟩)
    rw [word_prefix ht.len hK hk 64 _ (by omega) ha]
    exact hc

/-- `decode_dc` reads its symbol with `decodeSymbol`. -/
theorem decodeDc_eq (t : HuffmanTable) (pred : I32) :
    decodeDc t pred = (do
      refillIfBelow 16
      let sym ← decodeSymbol t
      if sym ≠ 0 then
        let r ← getBitsM sym
        pure (pred + huffExtend r sym)
      else pure (pred + 0)) := by
  funext s
  simp only [decodeDc, decodeSymbol, M.bind_apply]
  rcases refillIfBelow 16 s with ⟨o, s'⟩
  cases o <;> try rfl
  simp only [M.get_apply]
  rcases M.idx t.lookup (s'.bs.peek HUFF_LOOKAHEAD) s' with ⟨o, s''⟩
  cases o <;> rfl

/-- An accepted table with a code of length 12, so that the slow path is taken. -/
def c11Counts : List Nat := [1, 0, 1, 0, 0, 0, 0, 0, 0, 0, 0, 1, 0, 0, 0, 0]
def c11Values : List Nat := [7, 8, 9] ++ List.replicate 253 0

example : ∃ t, Accepted c11Counts c11Values false false t := by
  obtain ⟨t, ht⟩ := (c10_accepted_iff c11Counts c11Values false false rfl).2
    ⟨by unfold CodeExists; decide +kernel, by simp⟩
  exact ⟨t, rfl, by decide, by decide +kernel, by decide +kernel, ht⟩

example : (natBits 12 0b101000000000, 9) ∈ codeBook c11Counts c11Values := by decide +kernel

/-- **C12.** The code words of an accepted table are pairwise non-prefix: two entries of the code
book of which one starts the other are the same position of the book. -/
theorem c12_prefix_free {counts values : List Nat} {isDc prog : Bool} {t : HuffmanTable}
    (ht : Accepted counts values isDc prog t) (i j : Nat)
    (hi : i < (codeBook counts values).length) (hj : j < (codeBook counts values).length)
    (hp : (codeBook counts values)[i].1 <+: (codeBook counts values)[j].1) : i = j := by
  have hK := (table_parts ht.len ht.table).1
  have hlen : (codeBook counts values).length = (lengths counts).length := by
    have := lengths_length counts
    have := ht.sum
    have := ht.vlen
    rw [codeBook, codes_eq counts ht.len]; simp; omega
  have hget : ∀ k (hk : k < (codeBook counts values).length) (hk' : k < (lengths counts).length),
      (codeBook counts values)[k].1 = natBits (lengths counts)[k]
        (kr ((lengths counts).take k) / 2 ^ (16 - (lengths counts)[k])) := by
    intro k hk hk'
    simp only [codeBook, codes_eq counts ht.len, List.getElem_zip, List.getElem_map,
      codesFrom_getElem _ _ _ hk', Nat.zero_add]
  have hi' : i < (lengths counts).length := by omega
  have hj' : j < (lengths counts).length := by omega
  rw [hget i hi hi', hget j hj hj'] at hp
  -- extend word `j` by zeros to 16 bits
  have hb := lengths_bound counts ht.len _ (List.getElem_mem hj')
  have hlt : kr ((lengths counts).take j) < 2 ^ 16 :=
    Nat.lt_of_le_of_lt (kr_take_le _ _) hK
  have hcj : Covers (lengths counts) (kr ((lengths counts).take j)) j := by
    refine ⟨Nat.le_refl _, ?_⟩
    rw [kr_take_succ _ _ hj']
    have : 0 < 2 ^ (16 - (lengths counts)[j]) := by positivity
    omega
  have hpj := (word_prefix ht.len hK hj' 16 (kr ((lengths counts).take j)) (by omega) hlt).2
    (by simpa using hcj)
  have hci := (word_prefix ht.len hK hi' 16 (kr ((lengths counts).take j)) (by omega) hlt).1
    (hp.trans hpj)
  exact Covers.unique (by simpa using hci) hcj

/-- **C13 (partial).** The combined AC table: a non-zero entry for the next 9 bits belongs to the
code word that starts them, and the word with its magnitude bits fits into the 9 bits; if its symbol has magnitude category 1 to 5 then the entry holds the
run, the value and the number of bits that decoding the symbol and extending the following bits
gives; for the symbols 0x00 (end of block) and 0xF0 (16 zeros) it advances past the block end, or
by 16 coefficients, with value 0.

Missing from the full statement: magnitude categories 6 and 7 with short codes, and symbols with
category 0 and run 1 to 14; for these the entries are wrong (`c13_false_magnitude`,
`c13_false_run`). -/
theorem c13_fast_ac_partial {counts values : List Nat} {prog : Bool} {t : HuffmanTable}
    (ht : Accepted counts values false prog t) (L : List I16) (hL : t.acLookup = some L)
    (w9 : Nat) (hw : w9 < 512) :
    ∃ e, L[w9]? = some e ∧ (e ≠ 0 → ∃ w rs, (w, rs) ∈ codeBook counts values ∧
      w <+: natBits 9 w9 ∧ (rs % 16 ≠ 0 → w.length + rs % 16 ≤ 9) ∧ (rs % 16 = 0 → prog = false) ∧
      (1 ≤ rs % 16 → rs % 16 ≤ 5 → ∃ extra, extra.length = rs % 16 ∧
        w ++ extra <+: natBits 9 w9 ∧
        ((e >>> 4) &&& 63).toNat = rs / 16 ∧
        (e.sshiftRight 10).toInt = extend (rs % 16) (bitsNat extra) ∧
        (e &&& 15).toNat = w.length + extra.length) ∧
      (rs = 0x00 → prog = false ∧ ((e >>> 4) &&& 63).toNat = 63 ∧ e.sshiftRight 10 = 0 ∧
        (e &&& 15).toNat = w.length) ∧
      (rs = 0xF0 → prog = false ∧ ((e >>> 4) &&& 63).toNat = 15 ∧ e.sshiftRight 10 = 0 ∧
        (e &&& 15).toNat = w.length)) := by
  have hp := lengths_sorted counts ht.len
  have hb := lengths_bound counts ht.len
  have hll := lengths_length counts
  have hsum := ht.sum
  have hvl := ht.vlen
  obtain ⟨hK, -, -, -, hac, -, -⟩ := table_parts ht.len ht.table
  have hL' : L = genFastAc (entriesOf (lengths counts) values) prog := by
    rw [hL] at hac; exact Option.some.inj hac
  have hq : w9 * 128 / 128 = w9 := by omega
  obtain ⟨-, g1, g2⟩ := genFastAc_spec hp hK (values := values) (by omega) prog (w9 * 128)
    (by omega)
  rw [← hL', hq] at g1 g2
  by_cases hex : ∃ k, ∃ hk : k < (lengths counts).length,
      (lengths counts)[k] ≤ 9 ∧ k < 255 ∧ Covers (lengths counts) (w9 * 128) k
  · obtain ⟨k, hk, h9, h255, hc⟩ := hex
    have hkv : k < values.length := by omega
    refine ⟨_, g1 k hk h9 hc h255, fun hne => ?_⟩
    have hb1 := (hb _ (List.getElem_mem hk)).1
    have hrs : values[k] < 256 := ht.vb _ (List.getElem_mem _)
    have hpre : natBits (lengths counts)[k]
        (kr ((lengths counts).take k) / 2 ^ (16 - (lengths counts)[k])) <+: natBits 9 w9 := by
      have := (word_prefix ht.len hK hk 16 (w9 * 128) (by omega) (by omega)).2 (by simpa using hc)
      have e : natBits 9 w9 <+: natBits 16 (w9 * 128) := by
        rw [natBits_prefix (by omega) (by omega) (by omega)]; omega
      exact List.prefix_of_prefix_length_le this e (by simp; omega)
    have e1 : values[k] &&& 15 = values[k] % 16 := Nat.and_two_pow_sub_one_eq_mod _ 4
    have h10 : values[k] % 16 ≠ 0 → (lengths counts)[k] + values[k] % 16 ≤ 9 := by
      intro h0
      by_contra hcon
      apply hne
      unfold fastAcEntry
      simp only [e1, HUFF_LOOKAHEAD]
      rw [if_neg (by omega), if_neg (by omega)]
    refine ⟨_, values[k], (codeBook_mem ht.len).2 ⟨k, hk, hkv, rfl, rfl⟩, hpre,
      by rw [natBits_length]; exact h10, ?_, ?_, ?_, ?_⟩
    · intro h0
      cases prog with
      | false => rfl
      | true => exact absurd (by unfold fastAcEntry; simp [e1, h0]) hne
    · intro hm1 hm5
      have h10 := h10 (by omega)
      obtain ⟨-, r1, r2, r3⟩ := fastAcEntry_small w9 values[k] (lengths counts)[k] prog hw hrs hb1
        hm1 hm5 h10
      refine ⟨((natBits 9 w9).drop (lengths counts)[k]).take (values[k] % 16), ?_, ?_, r1, ?_, ?_⟩
      · simp; omega
      · obtain ⟨tl, htl⟩ := hpre
        rw [← htl, List.drop_append_of_le_length (by simp), List.drop_of_length_le (by simp),
          List.nil_append]
        exact (List.prefix_append_right_inj _).2 (List.take_prefix _ _)
      · rw [r2, natBits_drop h9, natBits_take (by omega), bitsNat_natBits]
      · rw [r3]; simp; omega
    · intro h0
      rw [h0] at hne ⊢
      cases prog with
      | true => exact absurd (by simp [fastAcEntry]) hne
      | false =>
        have e : fastAcEntry w9 0 (lengths counts)[k] false =
            BitVec.ofNat 16 (63 <<< 4) + BitVec.ofNat 16 (lengths counts)[k] := by
          simp [fastAcEntry]
        rw [e]
        refine ⟨rfl, ?_⟩
        have hl16 : (lengths counts)[k] ≤ 9 := h9
        rw [natBits_length]
        generalize (lengths counts)[k] = l at *
        interval_cases l <;> decide
    · intro h0
      rw [h0] at hne ⊢
      cases prog with
      | true => exact absurd (by simp [fastAcEntry]) hne
      | false =>
        have e : fastAcEntry w9 0xF0 (lengths counts)[k] false =
            BitVec.ofNat 16 (15 <<< 4) + BitVec.ofNat 16 (lengths counts)[k] := by
          simp [fastAcEntry]
        rw [e]
        refine ⟨rfl, ?_⟩
        have hl16 : (lengths counts)[k] ≤ 9 := h9
        rw [natBits_length]
        generalize (lengths counts)[k] = l at *
        interval_cases l <;> decide
  · refine ⟨0, g2 ?_, fun h => absurd rfl h⟩
    intro k hk h9 h255 hc
    exact hex ⟨k, hk, h9, h255, hc⟩

/-- The table with the single code `0` for symbol `rs`. -/
def oneCode (rs : Nat) : List Nat × List Nat :=
  ([1, 0, 0, 0, 0, 0, 0, 0, 0, 0, 0, 0, 0, 0, 0, 0], rs :: List.replicate 255 0)

/-- **C13 is false in general.** With the code `0` for symbol 0x06 and the bits `0 111111 00` the
entry holds the value -1; the coded value is 63. -/
theorem c13_false_magnitude : ∃ (t : HuffmanTable) (L : List I16) (e : I16),
    HuffmanTable.new (0 :: (oneCode 0x06).1) (oneCode 0x06).2 false false = some t ∧
    t.acLookup = some L ∧ L[0b011111100]? = some e ∧
    (e &&& 15).toNat = 7 ∧ (e.sshiftRight 10).toInt = -1 ∧
    extend 6 (bitsNat (((natBits 9 0b011111100).drop 1).take 6)) = 63 := by
  refine ⟨_, _, _, rfl, rfl, rfl, ?_⟩
  decide +kernel

/-- **C13 is false in general.** A symbol with run 1 to 14 and category 0 ends the block on the
slow path; the combined entry moves on by `run + 1` coefficients instead. -/
theorem c13_false_run : ∃ (t : HuffmanTable) (L : List I16) (e : I16),
    HuffmanTable.new (0 :: (oneCode 0x10).1) (oneCode 0x10).2 false false = some t ∧
    t.acLookup = some L ∧ L[0]? = some e ∧ e ≠ 0 ∧
    (e &&& 15).toNat = 1 ∧ ((e >>> 4) &&& 63).toNat = 1 := by
  refine ⟨_, _, _, rfl, rfl, rfl, ?_⟩
  decide +kernel

end Zune
