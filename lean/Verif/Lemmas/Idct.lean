import Verif.Model.Idct
import Verif.Lemmas.Slice
import Mathlib.Tactic.Ring
/-! The inverse DCT. -/

namespace Zune

/-! ### Rows and blocks -/

/-- Eight rows of eight values. -/
def IsRows (rows : List (List I16)) : Prop := rows.length = 8 ∧ ∀ r ∈ rows, r.length = 8

theorem isRows_scalar (block : List I16) (qt : List Nat) : IsRows (idctBlockScalar block qt) := by
  unfold idctBlockScalar
  split
  · exact ⟨by simp, fun r hr => by rw [List.eq_of_mem_replicate hr]; simp⟩
  · refine ⟨rfl, fun r hr => ?_⟩
    simp only [V8.toList, V8.map, List.mem_cons, List.not_mem_nil, or_false] at hr
    rcases hr with h | h | h | h | h | h | h | h <;> rw [h] <;> rfl

theorem isRows_avx (block : List I16) (qt : List Nat) : IsRows (idctBlockAvx block qt) := by
  unfold idctBlockAvx
  split
  · exact ⟨by simp, fun r hr => by rw [List.eq_of_mem_replicate hr]; simp⟩
  · refine ⟨rfl, fun r hr => ?_⟩
    simp only [avxPermuteStore, List.mem_cons, List.not_mem_nil, or_false] at hr
    rcases hr with h | h | h | h | h | h | h | h <;> rw [h] <;> rfl

theorem isRows_block (f : IdctFn) (block : List I16) (qt : List Nat) :
    IsRows (f.block block qt) := by
  cases f
  · exact isRows_scalar block qt
  · exact isRows_avx block qt

/-! ### Placement -/

/-- Value `c` of row `r`. -/
def sample (rows : List (List I16)) (r c : Nat) : Option I16 := rows[r]?.bind (·[c]?)

theorem writeRows_spec (stride : Nat) (hs : 8 ≤ stride) : ∀ (rows : List (List I16)) (out : List I16)
    (pos : Nat), (∀ r ∈ rows, r.length = 8) →
    (∀ r, r < rows.length → pos + r * stride + 8 ≤ out.length) →
    ∃ out', writeRows out pos stride rows = .ok out' ∧ out'.length = out.length ∧
      (∀ r c, r < rows.length → c < 8 → out'[pos + r * stride + c]? = sample rows r c) ∧
      (∀ p, (∀ r c, r < rows.length → c < 8 → p ≠ pos + r * stride + c) → out'[p]? = out[p]?)
  | [], out, pos, _, _ => ⟨out, rfl, rfl, fun r c h => absurd h (by simp), fun _ _ => rfl⟩
  | row :: rows, out, pos, hl, hb => by
    have hrow := hl row (by simp)
    have hb0 := hb 0 (by simp)
    have hw : pos + row.length ≤ out.length := by omega
    have hlen := length_writeAt (xs := row) hw
    obtain ⟨out', e, h1, h2, h3⟩ := writeRows_spec stride hs rows (writeAt out pos row) (pos + stride)
      (fun r hr => hl r (by simp [hr])) (fun r hr => by
        have := hb (r + 1) (by simpa using hr)
        rw [Nat.add_mul] at this
        rw [hlen]
        omega)
    refine ⟨out', ?_, by rw [h1, hlen], ?_, ?_⟩
    · unfold writeRows
      rw [writeChecked_ok hw]
      exact e
    · intro r c hr hc
      cases r with
      | zero =>
        rw [h3, getElem?_writeAt hw, if_pos (by omega)]
        · simp [sample]
        · intro r' c' hr' hc'
          omega
      | succ r =>
        have := h2 r c (by simpa using hr) hc
        rw [show pos + (r + 1) * stride + c = pos + stride + r * stride + c by rw [Nat.add_mul]; omega,
          this]
        simp [sample]
    · intro p hp
      rw [h3, getElem?_writeAt hw, if_neg]
      · intro hlt
        exact hp 0 (p - pos) (by simp) (by omega) (by omega)
      · intro r c hr hc
        have := hp (r + 1) c (by simpa using hr) hc
        rw [Nat.add_mul] at this
        omega

theorem idctChunk_spec {f : List I16 → List Nat → List (List I16)} {qt : List Nat}
    (hf : ∀ block, IsRows (f block qt)) {b : Nat} {chunk : List I16} (hc : chunk.length = 64 * b) :
    ∃ out, idctChunk f qt (8 * b) chunk = .ok out ∧ out.length = 64 * b ∧
      ∀ k r c, k < b → r < 8 → c < 8 →
        out[r * (8 * b) + (8 * k + c)]? = sample (f ((chunk.drop (64 * k)).take 64) qt) r c := by
  have hdiv : chunk.length / 64 = b := by omega
  have hl : (chunksExact 64 chunk).zipIdx.length = b := by
    rw [List.length_zipIdx, length_chunksExact, hdiv]
  obtain ⟨out, e, h1, h2⟩ := Out.fold_inv
    (f := fun out (bx : List I16 × Nat) => writeRows out (8 * bx.2) (8 * b) (f bx.1 qt))
    (P := fun n out => out.length = 64 * b ∧ ∀ k r c, k < n → k < b → r < 8 → c < 8 →
        out[r * (8 * b) + (8 * k + c)]? = sample (f ((chunk.drop (64 * k)).take 64) qt) r c)
    (l := (chunksExact 64 chunk).zipIdx) (b := List.replicate chunk.length 0) (k := 0)
    ⟨by simp [hc], fun k r c h => absurd h (by omega)⟩ (by
      rintro i out ⟨blk, x⟩ hi ⟨hlen, hinv⟩
      rw [List.getElem?_zipIdx] at hi
      have hib : i < b := by
        by_contra hcon
        rw [List.getElem?_eq_none (by rw [length_chunksExact]; omega)] at hi
        cases hi
      rw [getElem?_chunksExact (by omega)] at hi
      simp only [Option.map_some, Option.some.injEq, Prod.mk.injEq] at hi
      obtain ⟨rfl, rfl⟩ := hi
      obtain ⟨hr1, hr2⟩ := hf ((chunk.drop (i * 64)).take 64)
      obtain ⟨out', e', h1, h2, h3⟩ := writeRows_spec (8 * b) (by omega) _ out (8 * (0 + i)) hr2 (by
        intro r hr
        have : r * (8 * b) ≤ 7 * (8 * b) := Nat.mul_le_mul_right _ (by omega)
        omega)
      refine ⟨out', e', by rw [h1, hlen], fun k r c hk hkb hr hc' => ?_⟩
      by_cases hki : k = i
      · subst hki
        have := h2 r c (by omega) hc'
        rw [show r * (8 * b) + (8 * k + c) = 8 * (0 + k) + r * (8 * b) + c by omega, this,
          Nat.mul_comm 64 k]
      · rw [h3, hinv k r c (by omega) hkb hr hc']
        intro r' c' hr' hc'' heq
        have := (row_col (n := 8 * b) (r := r) (r' := r') (c := 8 * k + c) (c' := 8 * (0 + i) + c')
          (by omega) (by omega) (by omega)).2
        omega)
  refine ⟨out, e, h1, fun k r c hk => h2 k r c (by omega) hk⟩

theorem idctStrip_spec {f : List I16 → List Nat → List (List I16)} {qt : List Nat}
    (hf : ∀ block, IsRows (f block qt)) {b n samp vSamp : Nat} {vector : List I16} (hb : 0 < b)
    (hs : samp ≠ 0) (hv : vector.length = n * (64 * b)) (hc : vector.length * vSamp / samp = 64 * b) :
    ∃ out, idctStrip f vector qt (8 * b) samp vSamp = .ok out ∧ out.length = n * (64 * b) ∧
      ∀ m k r c, m < n → k < b → r < 8 → c < 8 →
        out[m * (64 * b) + (r * (8 * b) + (8 * k + c))]? =
          sample (f ((vector.drop (64 * (m * b + k))).take 64) qt) r c := by
  have hdiv : vector.length / (64 * b) = n := by rw [hv, Nat.mul_div_cancel _ (by omega)]
  have hlen : ∀ ch ∈ chunksExact (64 * b) vector, ch.length = 64 * b := fun ch h => chunk_length h
  -- the result of each chunk
  have hex : ∀ ch : List I16, ∃ out, ch.length = 64 * b → idctChunk f qt (8 * b) ch = .ok out ∧
      out.length = 64 * b ∧ ∀ k r c, k < b → r < 8 → c < 8 →
        out[r * (8 * b) + (8 * k + c)]? = sample (f ((ch.drop (64 * k)).take 64) qt) r c := by
    intro ch
    by_cases h : ch.length = 64 * b
    · obtain ⟨out, h'⟩ := idctChunk_spec hf h
      exact ⟨out, fun _ => h'⟩
    · exact ⟨[], fun h' => absurd h' h⟩
  obtain ⟨g, hg⟩ := Classical.axiomOfChoice hex
  have hcol := Out.collect_map_ok (f := idctChunk f qt (8 * b)) (g := g)
    (l := chunksExact (64 * b) vector) fun ch h => (hg ch (hlen ch h)).1
  have hgl : ∀ l ∈ (chunksExact (64 * b) vector).map g, l.length = 64 * b := by
    intro l hl
    obtain ⟨ch, hch, rfl⟩ := List.mem_map.1 hl
    exact (hg ch (hlen ch hch)).2.1
  have hfl : ((chunksExact (64 * b) vector).map g).flatten.length = vector.length := by
    rw [length_flatten_const hgl, List.length_map, length_chunksExact, hdiv, hv]
  refine ⟨((chunksExact (64 * b) vector).map g).flatten, ?_, by rw [hfl, hv], ?_⟩
  · unfold idctStrip
    rw [if_neg hs]
    dsimp only
    rw [hc, if_neg (by omega), hcol]
    show Out.ok (fit _ _ _) = _
    rw [fit_self hfl]
  · intro m k r c hm hk hr hc'
    have hp : r * (8 * b) + (8 * k + c) < 64 * b := by
      have : r * (8 * b) ≤ 7 * (8 * b) := Nat.mul_le_mul_right _ (by omega)
      omega
    rw [getElem?_flatten_const hgl hp, List.getElem?_map, getElem?_chunksExact (by omega)]
    have hmem : (vector.drop (m * (64 * b))).take (64 * b) ∈ chunksExact (64 * b) vector :=
      List.mem_of_getElem? (getElem?_chunksExact (by omega))
    have := (hg _ (hlen _ hmem)).2.2 k r c hk hr hc'
    show (g _)[_]? = _
    rw [this]
    congr 1
    rw [List.drop_take, List.take_take, List.drop_drop, Nat.min_eq_left (by omega)]
    rw [show m * (64 * b) + 64 * k = 64 * (m * b + k) by ring]

end Zune
