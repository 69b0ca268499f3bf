import Verif.Lemmas.AcFirst
/-! The refinement of a band, block by block. -/

namespace Zune
open Spec

/-- `q` is a coefficient after the point transform; `o` and `n` are the decoded coefficient before and
after the refinement. -/
structure Refines (bit : I16) (q : Int) (o n : I16) : Prop where
  zero : o = 0 ↔ q.natAbs < 2
  hist : 2 ≤ q.natAbs → n = if q.natAbs % 2 = 1 then refineCoef bit o else o
  pos : q = 1 → n = bit
  neg : q = -1 → n = -bit
  none : q = 0 → n = o

/-- The next bit can be read. -/
def Avail (s : B) (bits : List Bool) : Prop := 1 ≤ s.bs.bitsLeft ∨ bits.length ≤ s.bs.bitsLeft

theorem corrections_cons (q : Int) (qs : List Int) : corrections (q :: qs) =
    if 2 ≤ q.natAbs then decide (q.natAbs % 2 = 1) :: corrections qs else corrections qs := by
  unfold corrections
  by_cases h : 2 ≤ q.natAbs <;> simp [h]

theorem setBlock_ok {block : List I16} {z : Nat} (h : z < block.length) (v : I16) (s : B) :
    setBlock block z v s = (.ok (block.set z v), s) := by
  rw [setBlock, if_pos h]

theorem and63 {k : Nat} (h : k < 64) : k &&& 63 = k := by
  rw [show (63 : Nat) = 2 ^ 6 - 1 from rfl, Nat.and_two_pow_sub_one_eq_mod, Nat.mod_eq_of_lt h]

section
variable {bit : I16} {se : Nat} {old new : Nat → I16} {tail : Option (UInt8 × List UInt8)}

/-- Passing coefficients up to the next zero that counts. -/
theorem advance_spec (hse : se < 64) (rest : List Bool) (pre : List Int) :
    ∀ (s : B) (block : List I16) (k r n : Nat) , Mixed old new block k → n = se + 1 - k →
      k + pre.length ≤ se →
      (∀ i q, pre[i]? = some q → Refines bit q (old (k + i)) (new (k + i))) →
      (∀ q ∈ pre, q.natAbs ≠ 1) → old (k + pre.length) = 0 → List.count 0 pre = r →
      Avail s (corrections pre ++ rest) → Rep s (corrections pre ++ rest) tail →
      ∃ block' s', advanceNonzero bit se n k r block s = (.ok (k + pre.length, block'), s') ∧
        Mixed old new block' (k + pre.length) ∧ Rep s' rest tail ∧ Kept s s' := by
  induction pre with
  | nil =>
    intro s block k r n hmix hn hk _ _ hz hr hav hrep
    subst hn
    obtain ⟨n, hn⟩ : ∃ n, se + 1 - k = n + 1 := ⟨se - k, by simp only [List.length_nil] at hk; omega⟩
    simp only [List.length_nil, Nat.add_zero] at hk hz hr ⊢
    simp only [List.count_nil] at hr
    subst hr
    refine ⟨block, s, ?_, hmix, by simpa [corrections] using hrep, Kept.refl s⟩
    obtain ⟨z, hz', hlt, hzz⟩ := zz_ok k (by omega) s
    have hb := hmix.get hz' (Nat.le_refl _)
    rw [hn]
    unfold advanceNonzero
    rw [if_pos hk, and63 (by omega), M.bind_ok hzz, M.bind_ok (M.idx_some hb s), hz, if_neg (by simp)]
    rfl
  | cons q pre ih =>
    intro s block k r n hmix hn hk href hnew hz hr hav hrep
    simp only [List.length_cons] at hk hz
    obtain ⟨m, rfl⟩ : ∃ m, n = m + 1 := ⟨n - 1, by omega⟩
    have hq := href 0 q rfl
    simp only [Nat.add_zero] at hq
    obtain ⟨z, hz', hlt, hzz⟩ := zz_ok k (by omega) s
    have hb := hmix.get hz' (Nat.le_refl _)
    have hne := hnew q (by simp)
    have e1 : k + (pre.length + 1) = k + 1 + pre.length := by omega
    rw [e1] at hz
    have href' : ∀ i q, pre[i]? = some q → Refines bit q (old (k + 1 + i)) (new (k + 1 + i)) := by
      intro i q hi
      have := href (i + 1) q (by simpa using hi)
      rwa [show k + (i + 1) = k + 1 + i by omega] at this
    rw [corrections_cons] at hav hrep
    show ∃ block' s', advanceNonzero bit se (m + 1) k r block s =
      (.ok (k + (pre.length + 1), block'), s') ∧ Mixed old new block' (k + (pre.length + 1)) ∧ _
    rw [e1]
    unfold advanceNonzero
    rw [if_pos (by omega), and63 (by omega), M.bind_ok hzz, M.bind_ok (M.idx_some hb s)]
    by_cases h2 : 2 ≤ q.natAbs
    · have ho : old k ≠ 0 := fun h => by have := hq.zero.1 h; omega
      rw [if_pos h2] at hav hrep
      obtain ⟨s1, g1, g2, -⟩ := hrep.getBit (by
        rcases hav with h | h
        · exact h
        · simp only [List.cons_append, List.length_cons] at h; omega)
      have k1 := Kept.getBit g1
      obtain ⟨s2, f1, f2, f3, k2⟩ := g2.refillIfBelow 1 (by omega)
      have hset := hmix.set (new k) hz' rfl
      obtain ⟨block', s', a1, a2, a3, a4⟩ := ih s2 _ (k + 1) r m hset (by omega) (by omega) href'
        (fun q h => hnew q (by simp [h])) hz
        (by
          rw [List.count_cons] at hr
          rw [if_neg] at hr
          · exact hr
          · intro h
            have : q = 0 := by simpa using h
            subst this
            simp at h2) f3 f2
      refine ⟨block', s', ?_, a2, a3, (k1.trans k2).trans a4⟩
      rw [if_pos ho, M.bind_ok g1]
      have hval : (if decide (q.natAbs % 2 = 1) = true then refineCoef bit (old k) else old k) = new k := by
        rw [hq.hist h2]
        by_cases h : q.natAbs % 2 = 1
        · rw [if_pos h, if_pos (by simpa using h)]
        · rw [if_neg h, if_neg (by simpa using h)]
      rw [hval, M.bind_ok (setBlock_ok (by rw [hmix.1]; exact hlt) _ _), M.bind_ok f1, a1]
    · have h0 : q = 0 := by omega
      rw [if_neg h2] at hav hrep
      have ho : old k = 0 := hq.zero.2 (by omega)
      rw [List.count_cons, if_pos (by simpa using h0)] at hr
      obtain ⟨r, rfl⟩ : ∃ r', r = r' + 1 := ⟨r - 1, by omega⟩
      obtain ⟨block', s', a1, a2, a3, a4⟩ := ih s block (k + 1) r m
        (hmix.extend (by omega) fun j h1 h2 => by
          have : j = k := by omega
          subst this
          exact hq.none h0) (by omega) (by omega) href' (fun q h => hnew q (by simp [h])) hz
        (by omega) hav hrep
      refine ⟨block', s', ?_, a2, a3, a4⟩
      rw [ho, if_neg (by simp)]
      exact a1

/-- Correction bits for the rest of a band. -/
theorem eobRefine_spec (hse : se < 64) (rest : List Bool) (qs : List Int) :
    ∀ (s : B) (block : List I16) (k n : Nat), Mixed old new block k → n = se + 1 - k →
      k + qs.length = se + 1 →
      (∀ i q, qs[i]? = some q → Refines bit q (old (k + i)) (new (k + i))) →
      (∀ q ∈ qs, q.natAbs ≠ 1) →
      Avail s (corrections qs ++ rest) → Rep s (corrections qs ++ rest) tail →
      ∃ block' s', eobRefine bit se n k block s = (.ok block', s') ∧
        Mixed old new block' (se + 1) ∧ Rep s' rest tail ∧ Kept s s' := by
  induction qs with
  | nil =>
    intro s block k n hmix hn hk _ _ hav hrep
    simp only [List.length_nil, Nat.add_zero] at hk
    subst hn hk
    rw [Nat.sub_self]
    exact ⟨block, s, rfl, hmix, by simpa [corrections] using hrep, Kept.refl s⟩
  | cons q qs ih =>
    intro s block k n hmix hn hk href hnew hav hrep
    simp only [List.length_cons] at hk
    obtain ⟨m, rfl⟩ : ∃ m, n = m + 1 := ⟨n - 1, by omega⟩
    have hq := href 0 q rfl
    simp only [Nat.add_zero] at hq
    obtain ⟨z, hz', hlt, hzz⟩ := zz_ok k (by omega) s
    have hb := hmix.get hz' (Nat.le_refl _)
    have hne := hnew q (by simp)
    have href' : ∀ i q, qs[i]? = some q → Refines bit q (old (k + 1 + i)) (new (k + 1 + i)) := by
      intro i q hi
      have := href (i + 1) q (by simpa using hi)
      rwa [show k + (i + 1) = k + 1 + i by omega] at this
    rw [corrections_cons] at hav hrep
    rw [eobRefine, if_pos (by omega), and63 (by omega), M.bind_ok hzz, M.bind_ok (M.idx_some hb s)]
    by_cases h2 : 2 ≤ q.natAbs
    · have ho : old k ≠ 0 := fun h => by have := hq.zero.1 h; omega
      rw [if_pos h2] at hav hrep
      obtain ⟨s1, g1, g2, -⟩ := hrep.getBit (by
        rcases hav with h | h
        · exact h
        · simp only [List.cons_append, List.length_cons] at h; omega)
      have k1 := Kept.getBit g1
      obtain ⟨s2, f1, f2, f3, k2⟩ := g2.refillIfBelow 1 (by omega)
      have hset := hmix.set (new k) hz' rfl
      obtain ⟨block', s', a1, a2, a3, a4⟩ := ih s2 _ (k + 1) m hset (by omega) (by omega) href'
        (fun q h => hnew q (by simp [h])) f3 f2
      refine ⟨block', s', ?_, a2, a3, (k1.trans k2).trans a4⟩
      have hval : (if decide (q.natAbs % 2 = 1) = true then refineCoef bit (old k) else old k) = new k := by
        rw [hq.hist h2]
        by_cases h : q.natAbs % 2 = 1
        · rw [if_pos h, if_pos (by simpa using h)]
        · rw [if_neg h, if_neg (by simpa using h)]
      rw [if_pos ho, M.bind_ok g1, hval, M.bind_ok (setBlock_ok (by rw [hmix.1]; exact hlt) _ _)]
      dsimp only
      rw [M.bind_ok f1, a1]
    · have h0 : q = 0 := by omega
      rw [if_neg h2] at hav hrep
      have ho : old k = 0 := hq.zero.2 (by omega)
      obtain ⟨s2, f1, f2, f3, k2⟩ := hrep.refillIfBelow 1 (by omega)
      obtain ⟨block', s', a1, a2, a3, a4⟩ := ih s2 block (k + 1) m
        (hmix.extend (by omega) fun j h1 h2 => by
          have : j = k := by omega
          subst this
          exact hq.none h0) (by omega) (by omega) href' (fun q h => hnew q (by simp [h])) f3 f2
      refine ⟨block', s', ?_, a2, a3, Kept.trans k2 a4⟩
      have hin : (pure block : M B (List I16)) s = (.ok block, s) := rfl
      rw [ho, if_neg (by simp), M.bind_ok hin]
      dsimp only
      rw [M.bind_ok f1, a1]

end

/-! ### The symbols of a band -/

theorem refineSymbols_last (qs : List Int) (h : ∀ q ∈ qs, q.natAbs ≠ 1) (r : Nat) (pend : List Bool) :
    refineSymbols r pend qs =
      ([], if r = 0 ∧ pend = [] ∧ qs = [] then none else some (pend ++ corrections qs)) := by
  cases qs with
  | nil => simp [refineSymbols, corrections]
  | cons q qs =>
    rw [refineSymbols, if_pos h, if_neg (by simp)]

theorem refineSymbols_split (qs : List Int) : ∀ (r : Nat) (pend : List Bool), r ≤ 15 →
    (∃ q ∈ qs, q.natAbs = 1) →
    ∃ pre q post, qs = pre ++ q :: post ∧ (∀ x ∈ pre, x.natAbs ≠ 1) ∧
      r + List.count 0 pre ≤ 15 ∧
      ((q.natAbs = 1 ∧ refineSymbols r pend qs =
          ((16 * (r + List.count 0 pre) + 1, decide (0 < q) :: (pend ++ corrections pre)) ::
            (refineSymbols 0 [] post).1, (refineSymbols 0 [] post).2)) ∨
        (q = 0 ∧ r + List.count 0 pre = 15 ∧ post ≠ [] ∧ refineSymbols r pend qs =
          ((0xF0, pend ++ corrections pre) :: (refineSymbols 0 [] post).1,
            (refineSymbols 0 [] post).2))) := by
  induction qs with
  | nil => rintro r pend hr ⟨q, hq, -⟩; cases hq
  | cons q qs ih =>
    intro r pend hr hex
    have hno : ¬ ∀ x ∈ q :: qs, x.natAbs ≠ 1 := by
      obtain ⟨x, hx, h1⟩ := hex
      exact fun h => h x hx h1
    rw [refineSymbols, if_neg hno]
    by_cases h2 : 2 ≤ q.natAbs
    · rw [if_pos h2]
      have hex' : ∃ x ∈ qs, x.natAbs = 1 := by
        obtain ⟨x, hx, h1⟩ := hex
        rcases List.mem_cons.1 hx with rfl | hx
        · omega
        · exact ⟨x, hx, h1⟩
      obtain ⟨pre, y, post, e1, e2, e3, e4⟩ := ih r (pend ++ [decide (q.natAbs % 2 = 1)]) hr hex'
      have hc : List.count 0 (q :: pre) = List.count 0 pre := by
        rw [List.count_cons, if_neg]
        · omega
        · intro h
          have : q = 0 := by simpa using h
          subst this
          simp at h2
      refine ⟨q :: pre, y, post, by rw [e1]; rfl, ?_, by rw [hc]; exact e3, ?_⟩
      · intro x hx
        rcases List.mem_cons.1 hx with rfl | hx
        · omega
        · exact e2 x hx
      · rw [hc, corrections_cons, if_pos h2]
        simpa only [List.append_assoc, List.singleton_append] using e4
    · rw [if_neg h2]
      by_cases h0 : q = 0
      · have hex' : ∃ x ∈ qs, x.natAbs = 1 := by
          obtain ⟨x, hx, h1⟩ := hex
          rcases List.mem_cons.1 hx with rfl | hx
          · omega
          · exact ⟨x, hx, h1⟩
        rw [if_neg (by simpa using h0)]
        by_cases h15 : r = 15
        · rw [if_pos h15]
          refine ⟨[], q, qs, rfl, by simp, by simpa using hr, Or.inr ⟨h0, by simpa using h15, ?_, ?_⟩⟩
          · rintro rfl
            obtain ⟨x, hx, -⟩ := hex'
            cases hx
          · simp [corrections]
        · rw [if_neg h15]
          obtain ⟨pre, y, post, e1, e2, e3, e4⟩ := ih (r + 1) pend (by omega) hex'
          have hc : List.count 0 (q :: pre) = List.count 0 pre + 1 := by
            rw [List.count_cons, if_pos (by simpa using h0)]
          refine ⟨q :: pre, y, post, by rw [e1]; rfl, ?_, by rw [hc]; omega, ?_⟩
          · intro x hx
            rcases List.mem_cons.1 hx with rfl | hx
            · omega
            · exact e2 x hx
          · rw [hc, corrections_cons, if_neg h2, show r + (List.count 0 pre + 1) =
              r + 1 + List.count 0 pre by omega]
            exact e4
      · rw [if_pos h0]
        exact ⟨[], q, qs, rfl, by simp, by simpa using hr, Or.inl ⟨by omega, by simp [corrections]⟩⟩

/-! ### The loop over the symbols -/

section
variable {t : HuffmanTable} {bit : I16} {se : Nat} {old new : Nat → I16}
  {tail : Option (UInt8 × List UInt8)} {counts values : List Nat}

theorem refine_round {prog : Bool} (ht : Accepted counts values false prog t) {w x rest : List Bool}
    {rs : Nat} {s : B} (hm : (w, rs) ∈ codeBook counts values) (hx : x.length ≤ 14)
    (h : Rep s (w ++ (x ++ rest)) tail) (fuel k : Nat) (block : List I16) :
    ∃ s1, Rep s1 (x ++ rest) tail ∧ x.length ≤ s1.bs.bitsLeft ∧
      (x.length + 2 ≤ s1.bs.bitsLeft ∨ (x ++ rest).length ≤ s1.bs.bitsLeft) ∧ Kept s s1 ∧
      refineLoop t bit se (fuel + 1) k block s =
        (if rs % 16 = 0 ∧ rs / 16 ≠ 15 then do
          let bits ← getBitsM (rs / 16)
          M.modify fun s => { s with bs := { s.bs with eobRun := (1 <<< (rs / 16)) + bits.toNat } }
          pure (k, block)
        else if rs % 16 > 1 then M.throw .huffmanDecode
        else do
          let v ← if rs % 16 = 0 then pure (0 : I16) else do
            let b ← getBitM
            pure (if b then bit else -bit)
          let (k, block) ← advanceNonzero bit se (se + 1 - k) k (rs / 16) block
          let block ← if v ≠ 0 then do
              let i ← zz (k &&& 63)
              setBlock block i v
            else pure block
          if k + 1 > se then pure (k + 1, block)
          else refineLoop t bit se fuel (k + 1) block : M B (Nat × List I16)) s1 := by
  obtain ⟨hw1, hw2, -⟩ := word_length ht hm
  obtain ⟨s0, r1, r2, r3, kp, -⟩ := h.refill
  have hb : w.length ≤ s0.bs.bitsLeft := by
    rcases r3 with r3 | r3
    · omega
    · simp only [List.length_append] at r3; omega
  obtain ⟨q1, q2⟩ := Rep.decodeSymbol ht hm r2 hb
  obtain ⟨y, hy⟩ := lookup_some ht (s0.bs.peek 9) (peek9_lt _)
  have hs' : decodeHuff t y s0 = (.ok rs, { s0 with bs := s0.bs.drop w.length }) := by
    rw [← q1, decodeSymbol, M.bind_ok (M.get_apply s0)]
    simp only [HUFF_LOOKAHEAD]
    rw [M.bind_ok (M.idx_some hy s0)]
  refine ⟨_, q2, ?_, ?_, Kept.trans kp (Kept.drop _ _), ?_⟩
  · show x.length ≤ s0.bs.bitsLeft - w.length
    rcases r3 with r3 | r3
    · omega
    · simp only [List.length_append] at r3; omega
  · show x.length + 2 ≤ s0.bs.bitsLeft - w.length ∨ _ ≤ s0.bs.bitsLeft - w.length
    rcases r3 with r3 | r3
    · left; omega
    · right; simp only [List.length_append] at r3 ⊢; omega
  · rw [refineLoop, M.bind_ok r1, M.bind_ok (M.get_apply s0)]
    simp only [HUFF_LOOKAHEAD]
    rw [M.bind_ok (M.idx_some hy s0), M.bind_ok hs']
    have e1 : rs &&& 15 = rs % 16 := Nat.and_two_pow_sub_one_eq_mod _ 4
    have e2 : rs >>> 4 = rs / 16 := by rw [Nat.shiftRight_eq_div_pow]
    simp only [e1, e2]

/-- The run counter after the symbols of a block. -/
def atEob (fin : Option Nat) (s : B) : B :=
  match fin with
  | none => s
  | some n => { s with bs := { s.bs with eobRun := n } }

/-- The symbols of the band of a block, up to the end of band symbol if there is one. -/
theorem refine_band {prog : Bool} (ht : Accepted counts values false prog t) (word : Nat → List Bool)
    (rest : List Bool) (hse : se < 64) (hbit : bit ≠ 0) (hbit' : -bit ≠ 0)
    (fin : Option Nat) (hfin : ∀ n ∈ fin, 1 ≤ n ∧ n < 2 ^ 15) (corr : List Bool) (m : Nat) :
    ∀ (qs : List Int) (s : B) (block : List I16) (k fuel : Nat), qs.length ≤ m →
      k + qs.length = se + 1 → k ≤ se → se + 2 ≤ fuel + k → Mixed old new block k →
      (∀ i q, qs[i]? = some q → Refines bit q (old (k + i)) (new (k + i))) →
      (refineSymbols 0 [] qs).2 = fin.map (fun _ => corr) → (fin = none → corr = []) →
      (∀ p ∈ (refineSymbols 0 [] qs).1 ++ (fin.map eobSymbol).toList,
        (word p.1, p.1) ∈ codeBook counts values) →
      Rep s (symbolBits word ((refineSymbols 0 [] qs).1 ++ (fin.map eobSymbol).toList) ++
        (corr ++ rest)) tail →
      ∃ k' block' qs' s' s'', refineLoop t bit se fuel k block s = (.ok (k', block'), s') ∧
        Mixed old new block' k' ∧ k' + qs'.length = se + 1 ∧ k ≤ k' ∧
        (∀ i q, qs'[i]? = some q → Refines bit q (old (k' + i)) (new (k' + i))) ∧
        (∀ q ∈ qs', q.natAbs ≠ 1) ∧ corr = corrections qs' ∧ (fin = none → qs' = []) ∧
        Rep s'' (corr ++ rest) tail ∧ Kept s s'' ∧
        s' = atEob fin s'' := by
  induction m with
  | zero =>
    intro qs s block k fuel hm hk hle
    omega
  | succ m ih =>
    intro qs s block k fuel hm hk hle hfuel hmix href hsym hcorr hbook hrep
    obtain ⟨fuel, rfl⟩ : ∃ f, fuel = f + 1 := ⟨fuel - 1, by omega⟩
    by_cases hex : ∃ q ∈ qs, q.natAbs = 1
    · obtain ⟨pre, q, post, e1, e2, e3, e4⟩ := refineSymbols_split qs 0 [] (by omega) hex
      simp only [Nat.zero_add, List.nil_append] at e3 e4
      subst e1
      simp only [List.length_append, List.length_cons] at hm hk
      have hq := href pre.length q (by simp)
      have hqlt : q.natAbs < 2 := by
        rcases e4 with ⟨h, -⟩ | ⟨h, -⟩
        · omega
        · rw [h]; decide
      have hold : old (k + pre.length) = 0 := hq.zero.2 hqlt
      have hpre : ∀ i q, pre[i]? = some q → Refines bit q (old (k + i)) (new (k + i)) := by
        intro i q hi
        exact href i q (by rw [List.getElem?_append_left (List.getElem?_eq_some_iff.1 hi).1]; exact hi)
      have hpost : ∀ i q, post[i]? = some q →
          Refines bit q (old (k + pre.length + 1 + i)) (new (k + pre.length + 1 + i)) := by
        intro i q hi
        have := href (pre.length + (i + 1)) q (by
          rw [List.getElem?_append_right (by omega), show pre.length + (i + 1) - pre.length = i + 1 by omega]
          simpa using hi)
        rwa [show k + (pre.length + (i + 1)) = k + pre.length + 1 + i by omega] at this
      -- what follows the symbol
      have key : ∀ (s2 : B) (b2 : List I16), Mixed old new b2 (k + pre.length + 1) →
          (refineSymbols 0 [] post).2 = fin.map (fun _ => corr) →
          (∀ p ∈ (refineSymbols 0 [] post).1 ++ (fin.map eobSymbol).toList,
            (word p.1, p.1) ∈ codeBook counts values) →
          Rep s2 (symbolBits word ((refineSymbols 0 [] post).1 ++ (fin.map eobSymbol).toList) ++
            (corr ++ rest)) tail → Kept s s2 →
          ∃ k' block' qs' s' s'', (if k + pre.length + 1 > se then pure (k + pre.length + 1, b2)
              else refineLoop t bit se fuel (k + pre.length + 1) b2 : M B (Nat × List I16)) s2 =
              (.ok (k', block'), s') ∧
            Mixed old new block' k' ∧ k' + qs'.length = se + 1 ∧ k ≤ k' ∧
            (∀ i q, qs'[i]? = some q → Refines bit q (old (k' + i)) (new (k' + i))) ∧
            (∀ q ∈ qs', q.natAbs ≠ 1) ∧ corr = corrections qs' ∧ (fin = none → qs' = []) ∧
            Rep s'' (corr ++ rest) tail ∧ Kept s s'' ∧
            s' = atEob fin s'' := by
        intro s2 b2 hm2 hs2 hb2 hr2 hk2
        by_cases hp : post = []
        · subst hp
          simp only [List.length_nil] at hk
          have hnone : fin = none := by
            cases fin with
            | none => rfl
            | some n => simp [refineSymbols] at hs2
          subst hnone
          have hc := hcorr rfl
          subst hc
          refine ⟨k + pre.length + 1, b2, [], s2, s2, ?_, hm2, by simp; omega, by omega, by simp, by simp,
            rfl, fun _ => rfl, ?_, hk2, rfl⟩
          · rw [if_pos (by omega)]; rfl
          · simpa [refineSymbols, symbolBits] using hr2
        · have hpl : post.length ≠ 0 := by simpa using hp
          rw [if_neg (by omega)]
          obtain ⟨k', block', qs', s', s'', a1, a2, a3, a4, a5, a6, a7, a8, a9, a10, a11⟩ :=
            ih post s2 b2 (k + pre.length + 1) fuel (by omega) (by omega) (by omega) (by omega) hm2 hpost
              hs2 hcorr hb2 hr2
          exact ⟨k', block', qs', s', s'', a1, a2, a3, by omega, a5, a6, a7, a8, a9, hk2.trans a10, a11⟩
      rcases e4 with ⟨h1, e4⟩ | ⟨h0, h15, hpost0, e4⟩
      · -- a new coefficient
        rw [e4] at hsym hbook hrep
        dsimp only at hsym hbook hrep
        have hbook1 := hbook (16 * List.count 0 pre + 1, decide (0 < q) :: corrections pre) (by simp)
        dsimp only at hbook1
        obtain ⟨X, hX⟩ : ∃ X, symbolBits word ((refineSymbols 0 [] post).1 ++ (fin.map eobSymbol).toList) ++
            (corr ++ rest) = X := ⟨_, rfl⟩
        have hrep' : Rep s (word (16 * List.count 0 pre + 1) ++ ([decide (0 < q)] ++
            (corrections pre ++ X))) tail := by
          rw [← hX]
          simpa only [symbolBits, List.cons_append, List.flatMap_cons, List.append_assoc,
            List.singleton_append, List.nil_append] using hrep
        obtain ⟨s1, r1, r2, r3, k1, eq⟩ := refine_round (bit := bit) (se := se) ht hbook1 (by simp) hrep' fuel k block
        have hmod : (16 * List.count 0 pre + 1) % 16 = 1 := by omega
        have hdiv : (16 * List.count 0 pre + 1) / 16 = List.count 0 pre := by omega
        rw [hmod, hdiv, if_neg (by omega), if_neg (by omega)] at eq
        obtain ⟨s2, g1, g2, g3, -⟩ := r1.getBit (by simpa using r2)
        have k2 := Kept.getBit g1
        have hav : Avail s2 (corrections pre ++ X) := by
          unfold Avail
          rw [g3]
          simp only [List.length_cons, List.length_nil, List.length_append, List.singleton_append] at r3 ⊢
          omega
        obtain ⟨b3, s3, a1, a2, a3, a4⟩ := advance_spec (bit := bit) hse X pre s2 block k
          (List.count 0 pre) (se + 1 - k) hmix rfl (by omega) hpre e2 hold rfl hav g2
        have hv : (pure (if decide (0 < q) = true then bit else -bit) : M B I16) s2 =
            (.ok (if decide (0 < q) = true then bit else -bit), s2) := rfl
        rw [if_neg (by omega : ¬ (1 : Nat) = 0), M.bind_ok g1, M.bind_ok hv] at eq
        dsimp only at eq
        rw [M.bind_ok a1] at eq
        dsimp only at eq
        have hne : (if decide (0 < q) = true then bit else -bit) ≠ 0 := by
          split
          · exact hbit
          · exact hbit'
        obtain ⟨z, hz', hlt, hzz⟩ := zz_ok (k + pre.length) (by omega) s3
        have hval : (if decide (0 < q) = true then bit else -bit) = new (k + pre.length) := by
          by_cases hpos : 0 < q
          · rw [if_pos (by simpa using hpos), hq.pos (by omega)]
          · rw [if_neg (by simpa using hpos), hq.neg (by omega)]
        rw [if_pos hne, and63 (by omega), M.bind_ok hzz, M.bind_ok (setBlock_ok (by rw [a2.1]; exact hlt) _ _),
          hval] at eq
        rw [eq]
        exact key s3 _ (a2.set _ hz' rfl) hsym (fun p hp => hbook p (by
          simp only [List.cons_append, List.mem_cons]; exact Or.inr hp)) (by rw [hX]; exact a3)
          ((k1.trans k2).trans a4)
      · -- 16 zeros
        rw [e4] at hsym hbook hrep
        dsimp only at hsym hbook hrep
        have hbook1 := hbook (0xF0, corrections pre) (by simp)
        dsimp only at hbook1
        obtain ⟨X, hX⟩ : ∃ X, symbolBits word ((refineSymbols 0 [] post).1 ++ (fin.map eobSymbol).toList) ++
            (corr ++ rest) = X := ⟨_, rfl⟩
        have hrep' : Rep s (word 0xF0 ++ ([] ++ (corrections pre ++ X))) tail := by
          rw [← hX]
          simpa only [symbolBits, List.cons_append, List.flatMap_cons, List.append_assoc,
            List.singleton_append, List.nil_append] using hrep
        obtain ⟨s1, r1, r2, r3, k1, eq⟩ := refine_round (bit := bit) (se := se) ht hbook1 (by simp) hrep' fuel k block
        rw [if_neg (by omega), if_neg (by omega)] at eq
        have hv : (pure (0 : I16) : M B I16) s1 = (.ok 0, s1) := rfl
        have hav : Avail s1 (corrections pre ++ X) := by
          unfold Avail
          simp only [List.length_nil, List.length_append, List.nil_append] at r3 ⊢
          omega
        obtain ⟨b3, s3, a1, a2, a3, a4⟩ := advance_spec (bit := bit) hse X pre s1 block k
          15 (se + 1 - k) hmix rfl (by omega) hpre e2 hold h15 hav r1
        rw [if_pos (by omega), M.bind_ok hv, show 0xF0 / 16 = 15 from rfl] at eq
        dsimp only at eq
        rw [M.bind_ok a1] at eq
        dsimp only at eq
        have hpb : (pure b3 : M B (List I16)) s3 = (.ok b3, s3) := rfl
        rw [if_neg (by simp), M.bind_ok hpb] at eq
        rw [eq]
        refine key s3 _ (a2.extend (by omega) fun j h1 h2 => ?_) hsym (fun p hp => hbook p (by
          simp only [List.cons_append, List.mem_cons]; exact Or.inr hp)) (by rw [hX]; exact a3)
          (k1.trans a4)
        have : j = k + pre.length := by omega
        subst this
        exact hq.none h0
    · -- no new coefficient
      have hno : ∀ q ∈ qs, q.natAbs ≠ 1 := fun q hq h => hex ⟨q, hq, h⟩
      rw [refineSymbols_last qs hno] at hsym hbook hrep
      have hqs : qs ≠ [] := by
        rintro rfl
        simp only [List.length_nil] at hk
        omega
      rw [if_neg (by simp [hqs])] at hsym
      obtain ⟨n, rfl⟩ : ∃ n, fin = some n := by
        cases fin with
        | none => simp at hsym
        | some n => exact ⟨n, rfl⟩
      simp only [List.nil_append, Option.map_some, Option.some.injEq] at hsym
      obtain ⟨h1, h15⟩ := hfin n rfl
      obtain ⟨hl, hn⟩ := eob_value h1 h15
      have hbook1 := hbook (eobSymbol n) (by simp)
      obtain ⟨s1, r1, r2, r3, k1, eq⟩ := refine_round (bit := bit) (se := se) (tail := tail) (s := s) ht hbook1
        (x := (eobSymbol n).2) (rest := corr ++ rest)
        (by simp [eobSymbol]; omega) (by simpa [symbolBits] using hrep) fuel k block
      have hmod : (eobSymbol n).1 % 16 = 0 := by simp [eobSymbol]
      have hdiv : (eobSymbol n).1 / 16 = n.log2 := by simp [eobSymbol]
      rw [hmod, hdiv, if_pos ⟨rfl, by omega⟩] at eq
      obtain ⟨s2, q3, q4, -⟩ := r1.getBits r2 (by simp [eobSymbol]; omega)
      have hlen : (eobSymbol n).2.length = n.log2 := by simp [eobSymbol]
      rw [hlen, show (eobSymbol n).2 = natBits n.log2 (n - 2 ^ n.log2) from rfl] at q3
      rw [M.bind_ok q3, M.bind_ok (M.modify_apply _ s2), hn] at eq
      exact ⟨k, block, qs, _, s2, eq, hmix, hk, Nat.le_refl _, href, hno, hsym.symm, (fun h => by cases h),
        q4, k1.trans (Kept.getBits q3), rfl⟩

end

end Zune
