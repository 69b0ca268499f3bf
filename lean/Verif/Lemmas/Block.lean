import Verif.Props.Huffman
import Verif.Props.Bits
import Verif.Lemmas.Wp
import Verif.Spec.Block
/-! Block decoding: symbols read through `Rep`, and the block encoder. -/

namespace Zune
open Spec

theorem zigzag_eq : UN_ZIGZAG.take 64 = zigzag := by decide +kernel

/-- Two code words that start the same bits are the same entry. -/
theorem book_unique {counts values : List Nat} {isDc prog : Bool} {t : HuffmanTable}
    (ht : Accepted counts values isDc prog t) {w w' : List Bool} {v v' : Nat} {l : List Bool}
    (h : (w, v) ∈ codeBook counts values) (h' : (w', v') ∈ codeBook counts values)
    (hp : w <+: l) (hp' : w' <+: l) : w = w' ∧ v = v' := by
  obtain ⟨i, hi, e⟩ := List.getElem_of_mem h
  obtain ⟨j, hj, e'⟩ := List.getElem_of_mem h'
  have : i = j := by
    rcases Nat.le_total w.length w'.length with hl | hl
    · have := List.prefix_of_prefix_length_le hp hp' hl
      exact c12_prefix_free ht i j hi hj (by rw [e, e']; exact this)
    · have := List.prefix_of_prefix_length_le hp' hp hl
      exact (c12_prefix_free ht j i hj hi (by rw [e, e']; exact this)).symm
  subst this
  rw [e] at e'
  exact Prod.mk.inj e'

theorem word_length {counts values : List Nat} {isDc prog : Bool} {t : HuffmanTable}
    (ht : Accepted counts values isDc prog t) {w : List Bool} {v : Nat}
    (h : (w, v) ∈ codeBook counts values) : 1 ≤ w.length ∧ w.length ≤ 16 ∧ v < 256 := by
  obtain ⟨k, hk, hv, rfl, rfl⟩ := (codeBook_mem ht.len).1 h
  have := lengths_bound counts ht.len _ (List.getElem_mem hk)
  exact ⟨by simpa using this.1, by simpa using this.2, ht.vb _ (List.getElem_mem _)⟩

theorem dc_symbol_le {counts values : List Nat} {prog : Bool} {t : HuffmanTable}
    (ht : Accepted counts values true prog t) {w : List Bool} {v : Nat}
    (h : (w, v) ∈ codeBook counts values) : v ≤ 15 := by
  obtain ⟨k, hk, hv, rfl, rfl⟩ := (codeBook_mem ht.len).1 h
  have := (c10_accepted_iff counts values true prog ht.len).1 ⟨t, ht.table⟩
  have hl := lengths_length counts
  exact this.2 rfl _ (List.mem_iff_getElem.2 ⟨k, by simp; omega, by simp⟩)

/-- Reading a code word. -/
theorem Rep.decodeSymbol {counts values : List Nat} {isDc prog : Bool} {t : HuffmanTable}
    (ht : Accepted counts values isDc prog t) {w : List Bool} {v : Nat} {rest tail} {s : B}
    (hm : (w, v) ∈ codeBook counts values) (h : Rep s (w ++ rest) tail)
    (hw : w.length ≤ s.bs.bitsLeft) :
    decodeSymbol t s = (.ok v, { s with bs := s.bs.drop w.length }) ∧
      Rep { s with bs := s.bs.drop w.length } rest tail :=
  ⟨(c11_decode_symbol ht s).1 w v hm (h.peek_prefix hw), h.drop hw⟩

theorem category_spec (d : Int) (h : d ≠ 0) : 1 ≤ category d ∧ inCategory (category d) d := by
  unfold category
  rw [if_neg h]
  have h0 : d.natAbs ≠ 0 := by omega
  refine ⟨by omega, ?_, Nat.lt_log2_self⟩
  rw [Nat.add_sub_cancel]
  exact Nat.log2_self_le h0

theorem category_le {d : Int} {n : Nat} (h : d.natAbs < 2 ^ n) : category d ≤ n := by
  unfold category
  split
  · omega
  · have : d.natAbs.log2 < n := (Nat.log2_lt (by omega)).2 h
    omega

@[simp] theorem category_zero : category 0 = 0 := rfl

@[simp] theorem magnitudeBits_length (d : Int) : (magnitudeBits d).length = category d := by
  simp [magnitudeBits]

theorem bitsNat_magnitude (d : Int) (h : d ≠ 0) :
    bitsNat (magnitudeBits d) = additional (category d) d := by
  obtain ⟨h1, h2⟩ := category_spec d h
  rw [magnitudeBits, bitsNat_natBits, Nat.mod_eq_of_lt (extend_additional _ _ h1 h2).1]

/-- Extending the magnitude bits gives the value. -/
theorem huffExtend_magnitude (d : Int) (h : d ≠ 0) (h15 : category d ≤ 15) :
    huffExtend (BitVec.ofNat 32 (bitsNat (magnitudeBits d))) (category d) = BitVec.ofInt 32 d := by
  obtain ⟨h1, h2⟩ := category_spec d h
  obtain ⟨a, b⟩ := extend_additional _ _ h1 h2
  apply BitVec.eq_of_toInt_eq
  rw [bitsNat_magnitude d h, huffExtend_toInt _ _ h1 h15 a, b]
  have hd := h2.2
  have : 2 ^ category d ≤ 2 ^ 15 := Nat.pow_le_pow_right (by norm_num) h15
  rw [BitVec.toInt_ofInt, Int.bmod_def]
  omega

end Zune
