import Mathlib.Data.List.Nodup
import Verif.Lemmas.Block
import Verif.Spec.Encoder
/-! The AC loop of a baseline block, on encoded data. -/

namespace Zune
open Spec

theorem zigzag_length : zigzag.length = 64 := by decide +kernel
theorem zigzag_nodup : zigzag.Nodup := by decide +kernel
theorem zigzag_lt : ∀ z ∈ zigzag, z < 64 := by decide +kernel

theorem zigzag_inj {i j z : Nat} (hi : zigzag[i]? = some z) (hj : zigzag[j]? = some z) : i = j := by
  obtain ⟨a, b⟩ := List.getElem?_eq_some_iff.1 hi
  obtain ⟨c, d⟩ := List.getElem?_eq_some_iff.1 hj
  exact (List.Nodup.getElem_inj_iff zigzag_nodup).1 (b.trans d.symm)

theorem zz_ok (i : Nat) (h : i < 64) (s : B) :
    ∃ z, zigzag[i]? = some z ∧ z < 64 ∧ zz i s = (.ok z, s) := by
  have hz : i < zigzag.length := by rw [zigzag_length]; exact h
  have hlt := zigzag_lt _ (List.getElem_mem hz)
  refine ⟨zigzag[i], List.getElem?_eq_getElem hz, hlt, ?_⟩
  have he : UN_ZIGZAG[i]? = some zigzag[i] := by
    have : (UN_ZIGZAG.take 64)[i]? = some zigzag[i] := by
      rw [zigzag_eq, List.getElem?_eq_getElem hz]
    rwa [List.getElem?_take, if_pos h] at this
  unfold zz
  rw [M.bind_ok (M.idx_some he s)]
  show (Out.ok (zigzag[i] &&& 63), s) = _
  rw [show (63 : Nat) = 2 ^ 6 - 1 from rfl, Nat.and_two_pow_sub_one_eq_mod, Nat.mod_eq_of_lt hlt]

/-- Lookup tables of an accepted table have an entry for every window. -/
theorem lookup_some {counts values : List Nat} {isDc prog : Bool} {t : HuffmanTable}
    (ht : Accepted counts values isDc prog t) (w : Nat) (hw : w < 512) :
    ∃ x, t.lookup[w]? = some x := by
  have hp := lengths_sorted counts ht.len
  have hll := lengths_length counts
  have hsum := ht.sum
  have hvl := ht.vlen
  obtain ⟨hK, -, -, hlk, -, -, -⟩ := table_parts ht.len ht.table
  obtain ⟨g1, g2⟩ := genLookup_spec hp hK (values := values) (by omega) ht.vb (w * 128) (by omega)
  have e : w * 128 / 128 = w := by omega
  rw [e] at g1 g2
  have hlk' : t.lookup = genLookup (entriesOf (lengths counts) values)
    (List.replicate 512 (10 <<< 9)) := hlk
  rw [← hlk'] at g1 g2
  by_cases hex : ∃ k, ∃ hk : k < (lengths counts).length, (lengths counts)[k] ≤ 9 ∧
      Covers (lengths counts) (w * 128) k
  · obtain ⟨k, hk, h9, hc⟩ := hex
    exact ⟨_, g1 k hk h9 hc⟩
  · exact ⟨_, g2 fun k hk h9 hc => hex ⟨k, hk, h9, hc⟩⟩

theorem peek9_lt (b : BitStream) : b.peek 9 < 512 := by
  rw [peek_eq _ _ (by omega), Nat.div_lt_iff_lt_mul (by positivity)]
  have := b.aligned.isLt
  omega

theorem natBits9_peek (b : BitStream) : natBits 9 (b.peek 9) <+: natBits 64 b.aligned.toNat := by
  rw [peek_eq _ _ (by omega), natBits_prefix (by omega) b.aligned.isLt]
  rw [Nat.div_lt_iff_lt_mul (by positivity)]
  have := b.aligned.isLt
  omega

/-- The AC loop when the combined table has an entry. -/
theorem acLoop_fast {t : HuffmanTable} {L : List I16} {fuel pos : Nat} {block : List I16}
    {s s1 : B} {e : I16} {x z : Nat} (hpos : pos < 64) (hr : refill s = (.ok (), s1))
    (hL : L[s1.bs.peek 9]? = some e) (he : e ≠ 0) (hx : t.lookup[s1.bs.peek 9]? = some x)
    (hz : zigzag[min (pos + ((e >>> 4) &&& 63).toNat) 63]? = some z) (hb : block.length = 64) :
    acLoop t L (fuel + 1) pos block s =
      acLoop t L fuel (pos + ((e >>> 4) &&& 63).toNat + 1) (block.set z (e.sshiftRight 10))
        { s1 with bs := s1.bs.drop (e &&& 15).toNat } := by
  obtain ⟨z', hz', hlt, hzz⟩ := zz_ok (min (pos + ((e >>> 4) &&& 63).toNat) 63) (by omega) s1
  rw [hz] at hz'; cases hz'
  rw [acLoop, if_pos hpos, M.bind_ok hr, M.bind_ok (M.get_apply s1)]
  simp only [HUFF_LOOKAHEAD]
  rw [M.bind_ok (M.idx_some hL s1), M.bind_ok (M.idx_some hx s1), if_pos he, M.bind_ok hzz]
  have : setBlock block z (e.sshiftRight 10) s1 = (.ok (block.set z (e.sshiftRight 10)), s1) := by
    rw [setBlock, if_pos (by omega)]
  rw [M.bind_ok this, M.bind_ok (M.modify_apply _ s1)]

/-- The AC loop when the combined table has no entry. -/
theorem acLoop_slow {t : HuffmanTable} {L : List I16} {fuel pos : Nat} {block : List I16}
    {s s1 s2 : B} {x sym : Nat} (hpos : pos < 64) (hr : refill s = (.ok (), s1))
    (hL : L[s1.bs.peek 9]? = some 0) (hx : t.lookup[s1.bs.peek 9]? = some x)
    (hs : decodeSymbol t s1 = (.ok sym, s2)) :
    acLoop t L (fuel + 1) pos block s =
      (if sym % 16 ≠ 0 then do
          let bits ← getBitsM (sym % 16)
          let i ← zz ((pos + sym / 16) &&& 63)
          let block ← setBlock block i ((huffExtend bits (sym % 16)).setWidth 16)
          acLoop t L fuel (pos + sym / 16 + 1) block
        else if sym / 16 ≠ 15 then pure block
        else acLoop t L fuel (pos + 16) block : M B (List I16)) s2 := by
  have hs' : decodeHuff t x s1 = (.ok sym, s2) := by
    rw [← hs, decodeSymbol, M.bind_ok (M.get_apply s1)]
    simp only [HUFF_LOOKAHEAD]
    rw [M.bind_ok (M.idx_some hx s1)]
  rw [acLoop, if_pos hpos, M.bind_ok hr, M.bind_ok (M.get_apply s1)]
  simp only [HUFF_LOOKAHEAD]
  rw [M.bind_ok (M.idx_some hL s1), M.bind_ok (M.idx_some hx s1), if_neg (by simp),
    M.bind_ok hs']
  have e1 : sym &&& 15 = sym % 16 := Nat.and_two_pow_sub_one_eq_mod _ 4
  have e2 : sym >>> 4 = sym / 16 := by rw [Nat.shiftRight_eq_div_pow]
  simp only [e1, e2]

/-- `block` holds the first `n` entries of `tgt` in zig-zag order and zeros otherwise. -/
def Filled (tgt : Nat → I16) (block : List I16) (n : Nat) : Prop :=
  block.length = 64 ∧
    ∀ k z, zigzag[k]? = some z → block[z]? = some (if k < n then tgt k else 0)

theorem Filled.extend {tgt block n m} (h : Filled tgt block n) (hm : n ≤ m)
    (hz : ∀ k, n ≤ k → k < m → tgt k = 0) : Filled tgt block m := by
  refine ⟨h.1, fun k z hk => ?_⟩
  rw [h.2 k z hk]
  congr 1
  by_cases h1 : k < n
  · rw [if_pos h1, if_pos (by omega)]
  · rw [if_neg h1]
    by_cases h2 : k < m
    · rw [if_pos h2, hz k (by omega) h2]
    · rw [if_neg h2]

theorem Filled.set {tgt block n z} (h : Filled tgt block n) (v : I16) (hz : zigzag[n]? = some z)
    (hv : v = tgt n) : Filled tgt (block.set z v) (n + 1) := by
  have hz64 : z < 64 := zigzag_lt _ (List.mem_of_getElem? hz)
  have hl := h.1
  refine ⟨by simp [hl], fun k y hk => ?_⟩
  rw [List.getElem?_set]
  by_cases he : z = y
  · subst he
    have := zigzag_inj hz hk
    subst this
    rw [if_pos rfl, if_pos (by omega), if_pos (by omega), hv]
  · rw [if_neg he, h.2 k y hk]
    have : k ≠ n := by rintro rfl; rw [hz] at hk; exact he (Option.some.inj hk)
    congr 1
    by_cases h1 : k < n
    · rw [if_pos h1, if_pos (by omega)]
    · rw [if_neg h1, if_neg (by omega)]

theorem Filled.set_zero {tgt block n z k} (h : Filled tgt block n) (hz : zigzag[k]? = some z)
    (hk : n ≤ k) : Filled tgt (block.set z 0) n := by
  have hz64 : z < 64 := zigzag_lt _ (List.mem_of_getElem? hz)
  have hl := h.1
  refine ⟨by simp [hl], fun j y hj => ?_⟩
  rw [List.getElem?_set]
  by_cases he : z = y
  · subst he
    have := zigzag_inj hz hj
    subst this
    rw [if_pos rfl, if_pos (by omega), if_neg (by omega)]
  · rw [if_neg he, h.2 j y hj]

theorem zigzag_some (k : Nat) (h : k < 64) : ∃ z, zigzag[k]? = some z :=
  ⟨_, List.getElem?_eq_getElem (by rw [zigzag_length]; exact h)⟩

section
variable {counts values : List Nat} {t : HuffmanTable} {L : List I16}

/-- No marker has been reached, and `k` bits have been used since the last refill. -/
def Late (s : B) (k : Nat) : Prop := s.bs.marker = none → 32 ≤ s.bs.bitsLeft + k

theorem lastBits_append (word : Nat → List Bool) (k : Nat) (a l : List (Nat × List Bool))
    (p : Nat × List Bool) :
    lastBits word k (a ++ p :: l) = lastBits word (word p.1 ++ p.2).length l := by
  unfold lastBits
  rw [List.getLast?_append, List.getLast?_cons]
  cases l.getLast? <;> rfl

theorem Late.mono {s : B} {k m : Nat} (h : Late s k) (hm : k ≤ m) : Late s m :=
  fun hn => by have := h hn; omega

theorem Late.drop {s : B} {k : Nat} (h : s.bs.marker = none → 32 ≤ s.bs.bitsLeft) :
    Late { s with bs := s.bs.drop k } k := fun hn => by
  have := h hn
  show 32 ≤ s.bs.bitsLeft - k + k
  omega

/-- The state after the refill of a round, and the entry of the combined table. -/
theorem ac_round {prog : Bool} (ht : Accepted counts values false prog t) (hL : t.acLookup = some L)
    {w x rest : List Bool} {rs : Nat} {s : B} {tail}
    (hm : (w, rs) ∈ codeBook counts values) (hx : x.length = rs % 16)
    (h : Rep s (w ++ (x ++ rest)) tail) :
    ∃ s1 e y, refill s = (.ok (), s1) ∧ Rep s1 (w ++ (x ++ rest)) tail ∧
      w.length + x.length ≤ s1.bs.bitsLeft ∧ (s1.bs.marker = none → 32 ≤ s1.bs.bitsLeft) ∧
      L[s1.bs.peek 9]? = some e ∧ t.lookup[s1.bs.peek 9]? = some y ∧
      (e ≠ 0 → (rs % 16 ≠ 0 → w.length + rs % 16 ≤ 9) ∧ (rs % 16 = 0 → prog = false) ∧
        (1 ≤ rs % 16 → rs % 16 ≤ 5 → ((e >>> 4) &&& 63).toNat = rs / 16 ∧
          (e.sshiftRight 10).toInt = extend (rs % 16) (bitsNat x) ∧
          (e &&& 15).toNat = w.length + x.length) ∧
        (rs = 0x00 → ((e >>> 4) &&& 63).toNat = 63 ∧ e.sshiftRight 10 = 0 ∧
          (e &&& 15).toNat = w.length) ∧
        (rs = 0xF0 → ((e >>> 4) &&& 63).toNat = 15 ∧ e.sshiftRight 10 = 0 ∧
          (e &&& 15).toNat = w.length)) := by
  obtain ⟨hw1, hw2, hrs⟩ := word_length ht hm
  obtain ⟨s1, r1, r2, r3, -, hlate⟩ := h.refill
  have hbits : w.length + x.length ≤ s1.bs.bitsLeft := by
    rcases r3 with r3 | r3
    · omega
    · simp only [List.length_append] at r3; omega
  obtain ⟨e, he, hc⟩ := c13_fast_ac_partial ht L hL (s1.bs.peek 9) (peek9_lt _)
  obtain ⟨y, hy⟩ := lookup_some ht (s1.bs.peek 9) (peek9_lt _)
  refine ⟨s1, e, y, r1, r2, hbits, hlate, he, hy, fun hne => ?_⟩
  obtain ⟨w', rs', hm', hp', c0, c1, c2, c3, c4⟩ := hc hne
  have hpre : w ++ x <+: natBits 64 s1.bs.aligned.toNat := by
    rw [← List.append_assoc] at r2
    exact r2.peek_prefix (by simpa using hbits)
  have hpw : w <+: natBits 64 s1.bs.aligned.toNat := (List.prefix_append _ _).trans hpre
  obtain ⟨rfl, rfl⟩ := book_unique ht hm hm' hpw (hp'.trans (natBits9_peek _))
  refine ⟨c0, c1, ?_, fun h => (c3 h).2, fun h => (c4 h).2⟩
  intro h1 h5
  obtain ⟨extra, q1, q2, q3, q4, q5⟩ := c2 h1 h5
  have : extra = x := by
    have := q2.trans (natBits9_peek _)
    have := List.prefix_of_prefix_length_le this hpre (by simp [q1, hx])
    exact ((List.prefix_append_right_inj _).1 this).eq_of_length (by omega)
  subst this
  exact ⟨q3, q4, q5⟩

/-- 16 zeros. -/
theorem ac_zrl {prog : Bool} (ht : Accepted counts values false prog t) (hL : t.acLookup = some L)
    {w rest : List Bool} {s : B} {tail} (hm : (w, 0xF0) ∈ codeBook counts values)
    (h : Rep s (w ++ rest) tail) {tgt : Nat → I16} {block : List I16} {pos : Nat} (fuel : Nat)
    (hpos : pos + 16 < 64) (hf : Filled tgt block pos) (hz : ∀ k, k < 16 → tgt (pos + k) = 0) :
    ∃ block' s', acLoop t L (fuel + 1) pos block s = acLoop t L fuel (pos + 16) block' s' ∧
      Filled tgt block' (pos + 16) ∧ Rep s' rest tail := by
  have hf16 : Filled tgt block (pos + 16) := hf.extend (by omega) fun k h1 h2 => by
    have := hz (k - pos) (by omega); rwa [Nat.add_sub_cancel' h1] at this
  obtain ⟨s1, e, y, r1, r2, r3, -, r4, r5, r6⟩ := ac_round ht hL (x := []) hm rfl (by simpa using h)
  simp only [List.nil_append] at r2
  simp only [List.length_nil, Nat.add_zero] at r3
  by_cases he : e = 0
  · subst he
    obtain ⟨q1, q2⟩ := Rep.decodeSymbol ht hm r2 r3
    refine ⟨block, _, ?_, hf16, q2⟩
    rw [acLoop_slow (by omega) r1 r4 r5 q1, if_neg (by omega), if_neg (by omega)]
  · obtain ⟨-, -, -, -, c4⟩ := r6 he
    obtain ⟨c1, c2, c3⟩ := c4 rfl
    obtain ⟨z, hzz⟩ := zigzag_some (pos + 15) (by omega)
    refine ⟨block.set z (e.sshiftRight 10), { s1 with bs := s1.bs.drop (e &&& 15).toNat },
      ?_, ?_, ?_⟩
    · rw [acLoop_fast (by omega) r1 r4 he r5 (z := z)
        (by rw [c1, Nat.min_eq_left (by omega)]; exact hzz) hf.1, c1]
    · rw [c2]
      have := hf.set_zero hzz (by omega)
      exact this.extend (by omega) fun k h1 h2 => by
        have := hz (k - pos) (by omega); rwa [Nat.add_sub_cancel' h1] at this
    · rw [c3]; exact r2.drop r3

theorem ac_zrls {prog : Bool} (ht : Accepted counts values false prog t) (hL : t.acLookup = some L)
    {w : List Bool} (hm : (w, 0xF0) ∈ codeBook counts values) {tgt : Nat → I16} {tail}
    (rest : List Bool) (q : Nat) :
    ∀ (s : B) (block : List I16) (pos fuel : Nat),
      Rep s ((List.replicate q w).flatten ++ rest) tail →
      pos + 16 * q < 64 → Filled tgt block pos → (∀ k, k < 16 * q → tgt (pos + k) = 0) →
      64 ≤ fuel + pos →
      ∃ block' s' fuel', acLoop t L fuel pos block s = acLoop t L fuel' (pos + 16 * q) block' s' ∧
        Filled tgt block' (pos + 16 * q) ∧ Rep s' rest tail ∧ 64 ≤ fuel' + (pos + 16 * q) := by
  induction q with
  | zero =>
    intro s block pos fuel h1 h2 h3 h4 h5
    exact ⟨block, s, fuel, rfl, h3, by simpa using h1, h5⟩
  | succ q ih =>
    intro s block pos fuel h1 h2 h3 h4 h5
    obtain ⟨fuel, rfl⟩ : ∃ f, fuel = f + 1 := ⟨fuel - 1, by omega⟩
    rw [List.replicate_succ, List.flatten_cons, List.append_assoc] at h1
    obtain ⟨b1, s1, e1, f1, r1⟩ := ac_zrl ht hL hm h1 fuel (by omega) h3 (fun k hk => h4 k (by omega))
    obtain ⟨b2, s2, fuel', e2, f2, r2, h6⟩ := ih s1 b1 (pos + 16) fuel r1 (by omega) f1
      (fun k hk => by have := h4 (16 + k) (by omega); rwa [← Nat.add_assoc] at this) (by omega)
    have e : pos + 16 + 16 * q = pos + 16 * (q + 1) := by ring
    rw [e] at e2 f2 h6
    exact ⟨b2, s2, fuel', e1.trans e2, f2, r2, h6⟩

/-- A non-zero coefficient after fewer than 16 zeros. -/
theorem ac_coef {prog : Bool} (ht : Accepted counts values false prog t) (hL : t.acLookup = some L)
    {w rest : List Bool} {run : Nat} {c : Int} {s : B} {tail} (hc : c ≠ 0) (hc15 : category c ≤ 15)
    (hrun : run < 16) (hm : (w, 16 * run + category c) ∈ codeBook counts values)
    (hsafe : 6 ≤ category c → 9 < w.length + category c)
    (h : Rep s (w ++ (magnitudeBits c ++ rest)) tail) {tgt : Nat → I16} {block : List I16}
    {pos : Nat} (fuel : Nat) (hpos : pos + run < 64) (hf : Filled tgt block pos)
    (hz : ∀ k, k < run → tgt (pos + k) = 0) (hv : tgt (pos + run) = BitVec.ofInt 16 c) :
    ∃ block' s', acLoop t L (fuel + 1) pos block s = acLoop t L fuel (pos + run + 1) block' s' ∧
      Filled tgt block' (pos + run + 1) ∧ Rep s' rest tail ∧ Late s' (w.length + category c) := by
  have hfr : Filled tgt block (pos + run) := hf.extend (by omega) fun k h1 h2 => by
    have := hz (k - pos) (by omega); rwa [Nat.add_sub_cancel' h1] at this
  obtain ⟨hcat1, hcat2⟩ := category_spec c hc
  have hdiv : (16 * run + category c) / 16 = run := by omega
  have hmod : (16 * run + category c) % 16 = category c := by omega
  have hb := hf.1
  obtain ⟨s1, e, y, r1, r2, r3, hlate, r4, r5, r6⟩ := ac_round ht hL (x := magnitudeBits c) hm
    (by rw [hmod]; simp) h
  rw [hmod, hdiv] at r6
  obtain ⟨z, hzz⟩ := zigzag_some (pos + run) hpos
  rw [magnitudeBits_length] at r3 r6
  by_cases he : e = 0
  · subst he
    obtain ⟨q1, q2⟩ := Rep.decodeSymbol ht hm r2 (by omega)
    obtain ⟨s2, q3, q4, q5, -, q7⟩ := q2.getBits (w := magnitudeBits c)
      (by simp only [BitStream.drop, magnitudeBits_length]; omega) (by simp; omega)
    obtain ⟨z', hz', hlt, hzz'⟩ := zz_ok (pos + run) hpos s2
    rw [hzz] at hz'; cases hz'
    refine ⟨block.set z (BitVec.ofInt 16 c), s2, ?_, hfr.set _ hzz hv.symm, q4, fun hn => ?_⟩
    rotate_left
    · rw [q7] at hn
      have := hlate hn
      rw [q5, magnitudeBits_length]
      show 32 ≤ s1.bs.bitsLeft - w.length - category c + (w.length + category c)
      omega
    rw [acLoop_slow (by omega) r1 r4 r5 q1, hmod, hdiv, if_pos (by omega)]
    rw [magnitudeBits_length] at q3
    have hand : (pos + run) &&& 63 = pos + run := by
      rw [show (63 : Nat) = 2 ^ 6 - 1 from rfl, Nat.and_two_pow_sub_one_eq_mod,
        Nat.mod_eq_of_lt hpos]
    rw [M.bind_ok q3, hand, M.bind_ok hzz', huffExtend_magnitude c hc hc15]
    have hsw : (BitVec.ofInt 32 c).setWidth 16 = BitVec.ofInt 16 c := by
      apply BitVec.eq_of_toNat_eq
      simp only [BitVec.toNat_setWidth, BitVec.toNat_ofInt]
      omega
    rw [hsw]
    have : setBlock block z (BitVec.ofInt 16 c) s2 =
        (.ok (block.set z (BitVec.ofInt 16 c)), s2) := by
      rw [setBlock, if_pos (by omega)]
    rw [M.bind_ok this]
  · obtain ⟨c0, -, c2, -, -⟩ := r6 he
    have := c0 (by omega)
    obtain ⟨q1, q2, q3⟩ := c2 hcat1 (by omega)
    refine ⟨block.set z (e.sshiftRight 10), { s1 with bs := s1.bs.drop (e &&& 15).toNat },
      ?_, ?_, ?_, by rw [q3]; exact Late.drop hlate⟩
    · rw [acLoop_fast (by omega) r1 r4 he r5 (z := z)
        (by rw [q1, Nat.min_eq_left (by omega)]; exact hzz) hf.1, q1]
    · refine hfr.set _ hzz ?_
      rw [hv]
      apply BitVec.eq_of_toInt_eq
      obtain ⟨a, b⟩ := extend_additional _ _ hcat1 hcat2
      rw [q2, bitsNat_magnitude c hc, b, BitVec.toInt_ofInt, Int.bmod_def]
      have := hcat2.2
      have : 2 ^ category c ≤ 2 ^ 5 := Nat.pow_le_pow_right (by norm_num) (by omega)
      omega
    · rw [q3]
      have r2' : Rep s1 ((w ++ magnitudeBits c) ++ rest) tail := by
        rw [List.append_assoc]; exact r2
      have := r2'.drop (by simp; omega)
      simpa using this

/-- End of block. -/
theorem ac_eob {prog : Bool} (ht : Accepted counts values false prog t) (hL : t.acLookup = some L)
    {w rest : List Bool} {s : B} {tail} (hm : (w, 0x00) ∈ codeBook counts values)
    (h : Rep s (w ++ rest) tail) {tgt : Nat → I16} {block : List I16} {pos : Nat} (fuel : Nat)
    (hpos : pos < 64) (hf : Filled tgt block pos) (hz : ∀ k, pos ≤ k → k < 64 → tgt k = 0) :
    ∃ block' s', acLoop t L (fuel + 1) pos block s = (.ok block', s') ∧
      Filled tgt block' 64 ∧ Rep s' rest tail ∧ Late s' w.length := by
  obtain ⟨s1, e, y, r1, r2, r3, hlate, r4, r5, r6⟩ := ac_round ht hL (x := []) hm rfl (by simpa using h)
  simp only [List.nil_append] at r2
  simp only [List.length_nil, Nat.add_zero] at r3
  by_cases he : e = 0
  · subst he
    obtain ⟨q1, q2⟩ := Rep.decodeSymbol ht hm r2 r3
    refine ⟨block, _, ?_, hf.extend (by omega) hz, q2, Late.drop hlate⟩
    rw [acLoop_slow hpos r1 r4 r5 q1, if_neg (by omega), if_pos (by omega)]
    rfl
  · obtain ⟨-, -, -, c3, -⟩ := r6 he
    obtain ⟨c1, c2, c3⟩ := c3 rfl
    obtain ⟨z, hzz⟩ := zigzag_some 63 (by omega)
    refine ⟨block.set z 0, { s1 with bs := s1.bs.drop w.length }, ?_, ?_, r2.drop r3, Late.drop hlate⟩
    · rw [acLoop_fast hpos r1 r4 he r5 (z := z) (by rw [c1, Nat.min_eq_right (by omega)]; exact hzz)
        hf.1, c1, c2, c3]
      cases fuel with
      | zero => rw [acLoop, if_neg (by omega)]; rfl
      | succ f => rw [acLoop, if_neg (by omega)]; rfl
    · exact (hf.set_zero hzz (by omega)).extend (by omega) hz

theorem replicate_flatMap_word (word : Nat → List Bool) (q rs : Nat) :
    (List.replicate q (rs, ([] : List Bool))).flatMap (fun p => word p.1 ++ p.2) =
      (List.replicate q (word rs)).flatten := by
  induction q with
  | zero => rfl
  | succ q ih => rw [List.replicate_succ, List.flatMap_cons, ih, List.replicate_succ]; simp

/-- All AC coefficients of a block. -/
theorem ac_block {prog : Bool} (ht : Accepted counts values false prog t) (hL : t.acLookup = some L)
    (word : Nat → List Bool) {tgt : Nat → I16} {tail} (rest : List Bool) (cs : List Int) :
    ∀ (s : B) (block : List I16) (pos run fuel k0 : Nat), pos + run + cs.length = 64 →
      Late s k0 →
      64 ≤ fuel + pos →
      Filled tgt block pos → (∀ k, k < run → tgt (pos + k) = 0) →
      (∀ i c, cs[i]? = some c → tgt (pos + run + i) = BitVec.ofInt 16 c) →
      (∀ c ∈ cs, category c ≤ 15) →
      (∀ p ∈ acSymbols run cs, (word p.1, p.1) ∈ codeBook counts values) →
      (∀ p ∈ acSymbols run cs, 6 ≤ p.1 % 16 → 9 < (word p.1).length + p.1 % 16) →
      Rep s (symbolBits word (acSymbols run cs) ++ rest) tail →
      ∃ block' s', acLoop t L fuel pos block s = (.ok block', s') ∧
        Filled tgt block' 64 ∧ Rep s' rest tail ∧
        Late s' (lastBits word k0 (acSymbols run cs)) := by
  induction cs with
  | nil =>
    intro s block pos run fuel k0 hlen hlate hfuel hf hz _ _ hbook _ hrep
    cases run with
    | zero =>
      simp only [List.length_nil, Nat.add_zero] at hlen
      subst hlen
      refine ⟨block, s, ?_, hf, by simpa [acSymbols, symbolBits] using hrep,
        by simpa [acSymbols, lastBits] using hlate⟩
      cases fuel <;> rw [acLoop, if_neg (by omega)] <;> rfl
    | succ run =>
      simp only [List.length_nil, Nat.add_zero] at hlen
      obtain ⟨fuel, rfl⟩ : ∃ f, fuel = f + 1 := ⟨fuel - 1, by omega⟩
      have e0 : lastBits word k0 (acSymbols (run + 1) []) = (word 0).length := by
        simp [acSymbols, lastBits]
      rw [e0]
      refine ac_eob ht hL (hbook (0, []) (by simp [acSymbols])) (w := word 0)
        (by simpa [acSymbols, symbolBits] using hrep) fuel (by omega) hf ?_
      intro k h1 h2
      have := hz (k - pos) (by omega); rwa [Nat.add_sub_cancel' h1] at this
  | cons c cs ih =>
    intro s block pos run fuel k0 hlen hlate hfuel hf hz hv h15 hbook hsafe hrep
    simp only [List.length_cons] at hlen
    by_cases hc : c = 0
    · have e : acSymbols run (c :: cs) = acSymbols (run + 1) cs := by
        cases run <;> simp [acSymbols, hc]
      rw [e] at hbook hsafe hrep ⊢
      refine ih s block pos (run + 1) fuel k0 (by omega) hlate hfuel hf ?_ ?_
        (fun c h => h15 c (by simp [h])) hbook hsafe hrep
      · intro k hk
        by_cases hk' : k < run
        · exact hz k hk'
        · have : k = run := by omega
          subst this
          have := hv 0 c rfl
          simpa [hc] using this
      · intro i c' hi
        have := hv (i + 1) c' (by simpa using hi)
        rw [← this]; congr 1; omega
    · have e : acSymbols run (c :: cs) = List.replicate (run / 16) (0xF0, []) ++
          (16 * (run % 16) + category c, magnitudeBits c) :: acSymbols 0 cs := by
        cases run <;> simp [acSymbols, hc]
      rw [e] at hbook hsafe hrep
      have hcat := h15 c (by simp)
      have hrep' : Rep s ((List.replicate (run / 16) (word 0xF0)).flatten ++
          (word (16 * (run % 16) + category c) ++ (magnitudeBits c ++
            (symbolBits word (acSymbols 0 cs) ++ rest)))) tail := by
        simpa only [symbolBits, List.flatMap_append, replicate_flatMap_word, List.flatMap_cons,
          List.append_assoc] using hrep
      have step1 : ∃ block' s' fuel', acLoop t L fuel pos block s =
            acLoop t L fuel' (pos + 16 * (run / 16)) block' s' ∧
          Filled tgt block' (pos + 16 * (run / 16)) ∧
          Rep s' (word (16 * (run % 16) + category c) ++ (magnitudeBits c ++
            (symbolBits word (acSymbols 0 cs) ++ rest))) tail ∧
          64 ≤ fuel' + (pos + 16 * (run / 16)) := by
        by_cases hq : run / 16 = 0
        · rw [hq] at hrep' ⊢
          exact ⟨block, s, fuel, rfl, hf, by simpa using hrep', by simpa using hfuel⟩
        · refine ac_zrls ht hL (hbook (0xF0, []) ?_) _ _ s block pos fuel hrep' (by omega) hf ?_ hfuel
          · simp [hq]
          · intro k hk; exact hz k (by omega)
      obtain ⟨b1, s1, f1, e1, g1, r1, h1⟩ := step1
      obtain ⟨f1, rfl⟩ : ∃ f, f1 = f + 1 := ⟨f1 - 1, by omega⟩
      have hmem : (16 * (run % 16) + category c, magnitudeBits c) ∈
          List.replicate (run / 16) (0xF0, []) ++
          (16 * (run % 16) + category c, magnitudeBits c) :: acSymbols 0 cs := by simp
      have hs := hsafe _ hmem
      have hmod : (16 * (run % 16) + category c) % 16 = category c := by omega
      simp only [hmod] at hs
      obtain ⟨b2, s2, e2, g2, r2, l2⟩ := ac_coef ht hL (run := run % 16) hc hcat (by omega)
        (hbook _ hmem) hs r1 (tgt := tgt) f1 (by omega) g1
        (fun k hk => by
          have := hz (16 * (run / 16) + k) (by omega)
          rwa [← Nat.add_assoc] at this)
        (by
          have := hv 0 c rfl
          rw [← this]; congr 1; omega)
      have ep : pos + 16 * (run / 16) + run % 16 + 1 = pos + run + 1 := by omega
      rw [ep] at e2 g2
      obtain ⟨b3, s3, e3, g3, r3, l3⟩ := ih s2 b2 (pos + run + 1) 0 f1 _ (by omega) l2 (by omega) g2
        (fun k hk => by omega)
        (fun i c' hi => by
          have := hv (i + 1) c' (by simpa using hi)
          rw [← this]; congr 1; omega)
        (fun c h => h15 c (by simp [h]))
        (fun p hp => hbook p (by simp [hp])) (fun p hp => hsafe p (by simp [hp])) r2
      refine ⟨b3, s3, by rw [e1, e2, e3], g3, r3, ?_⟩
      rw [e, lastBits_append, List.length_append, magnitudeBits_length]
      exact l3

end

end Zune
