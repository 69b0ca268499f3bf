import Verif.Lemmas.Total
import Verif.Spec.Refine
/-! AC refinement: the loops of `decode_mcu_ac_refine`. -/

namespace Zune
open Spec
open M (wp wp_bind wp_get wp_pure wp_modify wp_ite_of wp_idx wp_idx_of)

theorem refined_refl (bit c : I16) : Refined bit c c := Or.inl rfl

theorem refineCoef_refined (bit c : I16) (h : c ≠ 0) (b : Bool) :
    Refined bit c (if b then refineCoef bit c else c) := by
  cases b with
  | false => exact refined_refl _ _
  | true =>
    rw [if_pos rfl, refineCoef]
    by_cases hz : c &&& bit = 0
    · rw [if_pos hz]
      refine Or.inr (Or.inl ⟨h, hz, ?_⟩)
      have h0 : c.toInt ≠ 0 := by
        intro e; apply h; apply BitVec.eq_of_toInt_eq; rw [e]; rfl
      by_cases hp : 0 < c.toInt
      · rw [if_pos hp, if_pos (by omega)]
      · rw [if_neg hp, if_neg (by omega)]
    · rw [if_neg hz]; exact refined_refl _ _

/-- Positions `ss ≤ j < k` of the path have been refined, all others are unchanged. -/
def RefInv (bit : I16) (ss k : Nat) (b b' : List I16) : Prop :=
  b'.length = 64 ∧ ∀ j z, zigzag[j]? = some z → ∃ c c', b[z]? = some c ∧ b'[z]? = some c' ∧
    (ss ≤ j → j < k → Refined bit c c') ∧ (¬ (ss ≤ j ∧ j < k) → c' = c)

/-- The result of a refinement pass over the band `ss..se`; the position after the band may have
been overwritten. -/
def RefFinal (bit : I16) (ss se : Nat) (b b' : List I16) : Prop :=
  b'.length = 64 ∧ ∀ j z, zigzag[j]? = some z → ∃ c c', b[z]? = some c ∧ b'[z]? = some c' ∧
    (ss ≤ j → j ≤ se → Refined bit c c') ∧
    (¬ (ss ≤ j ∧ j ≤ se) → c' = c ∨ (j = (se + 1) % 64 ∧ (c' = bit ∨ c' = -bit)))

variable {bit : I16} {ss se k : Nat} {b b' : List I16}

theorem RefInv.init (hb : b.length = 64) : RefInv bit ss k b b := by
  refine ⟨hb, fun j z hz => ?_⟩
  have := zigzag_lt _ (List.mem_of_getElem? hz)
  exact ⟨_, _, List.getElem?_eq_getElem (by omega), List.getElem?_eq_getElem (by omega),
    fun _ _ => refined_refl _ _, fun _ => rfl⟩

theorem RefInv.skip (h : RefInv bit ss k b b') : RefInv bit ss (k + 1) b b' := by
  refine ⟨h.1, fun j z hz => ?_⟩
  obtain ⟨c, c', h1, h2, h3, h4⟩ := h.2 j z hz
  refine ⟨c, c', h1, h2, fun ha hb => ?_, fun hn => h4 (by omega)⟩
  by_cases hj : j < k
  · exact h3 ha hj
  · rw [h4 (by omega)]; exact refined_refl _ _

theorem RefInv.set (h : RefInv bit ss k b b') {z : Nat} {c v : I16} (hs : ss ≤ k)
    (hz : zigzag[k]? = some z) (hc : b'[z]? = some c) (hr : Refined bit c v) :
    RefInv bit ss (k + 1) b (b'.set z v) := by
  have hz64 := zigzag_lt _ (List.mem_of_getElem? hz)
  have hl := h.1
  refine ⟨by simp [hl], fun j y hy => ?_⟩
  obtain ⟨d, d', h1, h2, h3, h4⟩ := h.2 j y hy
  by_cases he : z = y
  · subst he
    have := zigzag_inj hz hy
    subst this
    refine ⟨d, v, h1, ?_, fun _ _ => ?_, fun hn => by omega⟩
    · rw [List.getElem?_set, if_pos rfl, if_pos (by omega)]
    · rw [h2] at hc
      have := h4 (by omega)
      rw [Option.some.inj hc] at this
      rw [← this]; exact hr
  · refine ⟨d, d', h1, ?_, fun ha hb => ?_, fun hn => h4 (by omega)⟩
    · rw [List.getElem?_set, if_neg he]; exact h2
    · have : j ≠ k := by rintro rfl; rw [hz] at hy; exact he (Option.some.inj hy)
      exact h3 ha (by omega)

theorem RefInv.final (h : RefInv bit ss (se + 1) b b') : RefFinal bit ss se b b' := by
  refine ⟨h.1, fun j z hz => ?_⟩
  obtain ⟨c, c', h1, h2, h3, h4⟩ := h.2 j z hz
  exact ⟨c, c', h1, h2, fun ha hb => h3 ha (by omega), fun hn => Or.inl (h4 (by omega))⟩

theorem RefInv.overflow (h : RefInv bit ss (se + 1) b b') {z : Nat} {v : I16} (hs : 1 ≤ ss)
    (hse : se ≤ 63)
    (hz : zigzag[(se + 1) % 64]? = some z) (hv : v = bit ∨ v = -bit) :
    RefFinal bit ss se b (b'.set z v) := by
  have hz64 := zigzag_lt _ (List.mem_of_getElem? hz)
  have hl := h.1
  refine ⟨by simp [hl], fun j y hy => ?_⟩
  obtain ⟨d, d', h1, h2, h3, h4⟩ := h.2 j y hy
  by_cases he : z = y
  · subst he
    have := zigzag_inj hz hy
    subst this
    refine ⟨d, v, h1, ?_, fun _ _ => by omega, fun hn => Or.inr ⟨rfl, hv⟩⟩
    rw [List.getElem?_set, if_pos rfl, if_pos (by omega)]
  · refine ⟨d, d', h1, ?_, fun ha hb => h3 ha (by omega), fun hn => Or.inl (h4 (by omega))⟩
    rw [List.getElem?_set, if_neg he]; exact h2

theorem and63_eq (n : Nat) : n &&& 63 = n % 64 := Nat.and_two_pow_sub_one_eq_mod n 6

theorem idx_block {pn dv : Prop} {E : DecodeErr → B → Prop} {s : B} {block : List I16} {i : Nat}
    {Q : I16 → B → Prop} (h : i < block.length) (hQ : ∀ c, block[i]? = some c → Q c s) :
    wp pn dv (M.idx block i) Q E s := wp_idx_of h hQ

section
variable {pn dv : Prop} {E : DecodeErr → B → Prop}

theorem wp_advanceNonzero (hse : se ≤ 63) (n : Nat) {Q : Nat × List I16 → B → Prop} :
    ∀ (k r : Nat) (b' : List I16) (s : B), k + n = se + 1 → ss ≤ k → RefInv bit ss k b b' →
      (∀ k' b'' s', Same s s' → k ≤ k' → k' ≤ se + 1 → RefInv bit ss k' b b'' →
        (∀ z, k' ≤ se → zigzag[k']? = some z → b''[z]? = some 0) → Q (k', b'') s') →
      (∀ e s', Same s s' → E e s') →
      wp pn dv (advanceNonzero bit se n k r b') Q E s := by
  induction n with
  | zero =>
    intro k r b' s hk hs hi hQ hE
    exact hQ k b' s (Same.refl s) (Nat.le_refl _) (by omega) hi (fun z h => by omega)
  | succ n ih =>
    intro k r b' s hk hs hi hQ hE
    unfold advanceNonzero
    rw [if_pos (by omega), wp_bind]
    refine wp_zz (and63_lt _) fun z hz hlt => ?_
    have hkk : k &&& 63 = k := by rw [and63_eq]; omega
    rw [hkk] at hz
    have hl := hi.1
    rw [wp_bind]
    refine idx_block (by omega) fun c hc => ?_
    refine wp_ite_of (fun hne => ?_) (fun h0 => ?_)
    · rw [wp_bind]
      refine wp_getBitM fun v s1 h1 => ?_
      rw [wp_bind]
      refine wp_setBlock (by omega) ?_
      rw [wp_bind]
      refine wp_refillIfBelow (fun s2 h2 => ?_) (fun s2 h2 => hE _ _ (h1.trans h2))
      have h12 := h1.trans h2
      exact ih (k + 1) r _ s2 (by omega) (by omega)
        (hi.set hs hz hc (refineCoef_refined bit c hne v))
        (fun k' b'' s' h a1 => hQ k' b'' s' (h12.trans h) (by omega))
        (fun e s' h => hE e s' (h12.trans h))
    · have hc0 : c = 0 := by simpa using h0
      subst hc0
      cases r with
      | zero =>
        exact hQ k b' s (Same.refl s) (Nat.le_refl _) (by omega) hi
          (fun y _ hy => by rw [hz] at hy; cases hy; exact hc)
      | succ r =>
        exact ih (k + 1) r _ s (by omega) (by omega) hi.skip
          (fun k' b'' s' h a1 => hQ k' b'' s' h (by omega)) hE

theorem wp_eobRefine (hse : se ≤ 63) (n : Nat) {Q : List I16 → B → Prop} :
    ∀ (k : Nat) (b' : List I16) (s : B), k + n = se + 1 → ss ≤ k → RefInv bit ss k b b' →
      (∀ b'' s', Same s s' → RefFinal bit ss se b b'' → Q b'' s') →
      (∀ e s', Same s s' → E e s') →
      wp pn dv (eobRefine bit se n k b') Q E s := by
  induction n with
  | zero =>
    intro k b' s hk hs hi hQ hE
    have : k = se + 1 := by omega
    subst this
    exact hQ b' s (Same.refl s) hi.final
  | succ n ih =>
    intro k b' s hk hs hi hQ hE
    unfold eobRefine
    rw [if_pos (by omega), wp_bind]
    refine wp_zz (and63_lt _) fun z hz hlt => ?_
    have hkk : k &&& 63 = k := by rw [and63_eq]; omega
    rw [hkk] at hz
    have hl := hi.1
    rw [wp_bind]
    refine idx_block (by omega) fun c hc => ?_
    dsimp only
    refine wp_ite_of (fun hne => ?_) (fun h0 => ?_)
    · rw [wp_bind]
      refine wp_getBitM fun v s1 h1 => ?_
      rw [wp_bind]
      refine wp_setBlock (by omega) ?_
      rw [wp_bind]
      refine wp_refillIfBelow (fun s2 h2 => ?_) (fun s2 h2 => hE _ _ (h1.trans h2))
      have h12 := h1.trans h2
      exact ih (k + 1) _ s2 (by omega) (by omega)
        (hi.set hs hz hc (refineCoef_refined bit c hne v))
        (fun b'' s' h => hQ b'' s' (h12.trans h))
        (fun e s' h => hE e s' (h12.trans h))
    · rw [wp_bind, wp_pure, wp_bind]
      refine wp_refillIfBelow (fun s2 h2 => ?_) (fun s2 h2 => hE _ _ h2)
      exact ih (k + 1) _ s2 (by omega) (by omega) hi.skip
        (fun b'' s' h => hQ b'' s' (h2.trans h)) (fun e s' h => hE e s' (h2.trans h))

theorem wp_refineLoop {t : HuffmanTable} (ht : ¬ pn → TableOk t) (h1s : 1 ≤ ss) (hse : se ≤ 63)
    (fuel : Nat) {Q : Nat × List I16 → B → Prop} :
    ∀ (k : Nat) (b' : List I16) (s : B), ss ≤ k → k ≤ se → se < fuel + k → RefInv bit ss k b b' →
      (∀ k' b'' s', SameP s s' → k' ≤ se → ss ≤ k' → RefInv bit ss k' b b'' → Q (k', b'') s') →
      (∀ k' b'' s', SameP s s' → se < k' → RefFinal bit ss se b b'' → Q (k', b'') s') →
      (∀ e s', SameP s s' → E e s') →
      wp pn dv (refineLoop t bit se fuel k b') Q E s := by
  induction fuel with
  | zero => intro k b' s _ _ h; omega
  | succ fuel ih =>
    intro k b' s hsk hk hf hi hQ1 hQ2 hE
    unfold refineLoop
    simp only [HUFF_LOOKAHEAD]
    rw [wp_bind]
    refine wp_refill (fun s1 h1 => ?_) (fun s1 h1 => hE _ _ h1.toSameP)
    rw [wp_bind, wp_get, wp_bind]
    refine wp_lookup ht fun e he => ?_
    rw [wp_bind]
    refine wp_decodeHuff ht he (fun v s2 h2 => ?_) (fun s2 h2 => hE _ _ (h1.trans h2).toSameP)
    have h12 := h1.trans h2
    refine wp_ite_of (fun _ => ?_) (fun _ => wp_ite_of (fun _ => hE _ _ h12.toSameP) (fun _ => ?_))
    · rw [wp_bind]
      refine wp_getBitsM fun w s3 h3 => ?_
      rw [wp_bind, wp_modify]
      have h := (h12.trans h3).toSameP
      exact hQ1 _ _ _ ⟨h.sh, h.sl, h.ss, h.se, h.rd, h.marker⟩ hk hsk hi
    · have step : ∀ (v' : I16) (s3 : B), Same s s3 → (v' = 0 ∨ v' = bit ∨ v' = -bit) →
          wp pn dv (do
            let (k, block) ← advanceNonzero bit se (se + 1 - k) k (v >>> 4) b'
            let block ← if v' ≠ 0 then do
                let i ← zz (k &&& 63)
                setBlock block i v'
              else pure block
            if k + 1 > se then pure (k + 1, block)
            else refineLoop t bit se fuel (k + 1) block) Q E s3 := by
        intro v' s3 h3 hv'
        rw [wp_bind]
        refine wp_advanceNonzero hse _ k _ b' s3 (by omega) hsk hi ?_ ?_
        · intro k' b'' s4 h4 hk1 hk2 hi' hzero
          have h := h3.trans h4
          dsimp only
          refine wp_ite_of (fun hne => ?_) (fun h0 => ?_)
          · have hv := hv'.resolve_left hne
            rw [wp_bind]
            refine wp_zz (and63_lt _) fun z hz hlt => ?_
            have hl := hi'.1
            rw [wp_bind]
            refine wp_setBlock (by omega) ?_
            rw [and63_eq] at hz
            by_cases hks : k' ≤ se
            · have hkk : k' % 64 = k' := by omega
              rw [hkk] at hz
              have hset := hi'.set (by omega) hz (hzero z hks hz) (Or.inr (Or.inr ⟨rfl, hv⟩))
              refine wp_ite_of (fun hgt => ?_) (fun hle => ?_)
              · have : k' = se := by omega
                subst this
                exact hQ2 _ _ _ h.toSameP (by omega) hset.final
              · exact ih (k' + 1) _ s4 (by omega) (by omega) (by omega) hset
                  (fun k'' b3 s' h' => hQ1 k'' b3 s' (h.toSameP.trans h'))
                  (fun k'' b3 s' h' => hQ2 k'' b3 s' (h.toSameP.trans h'))
                  (fun e s' h' => hE e s' (h.toSameP.trans h'))
            · have : k' = se + 1 := by omega
              subst this
              rw [if_pos (by omega)]
              exact hQ2 _ _ _ h.toSameP (by omega) (hi'.overflow h1s hse hz hv)
          · rw [wp_bind, wp_pure]
            refine wp_ite_of (fun hgt => ?_) (fun hle => ?_)
            · refine hQ2 _ _ _ h.toSameP (by omega) ?_
              by_cases hks : k' ≤ se
              · have : k' = se := by omega
                subst this
                exact hi'.skip.final
              · have : k' = se + 1 := by omega
                subst this
                exact hi'.final
            · exact ih (k' + 1) _ s4 (by omega) (by omega) (by omega) hi'.skip
                  (fun k'' b3 s' h' => hQ1 k'' b3 s' (h.toSameP.trans h'))
                  (fun k'' b3 s' h' => hQ2 k'' b3 s' (h.toSameP.trans h'))
                  (fun e s' h' => hE e s' (h.toSameP.trans h'))
        · intro e s4 h4
          exact hE _ _ (h3.trans h4).toSameP
      refine wp_ite_of (fun _ => ?_) (fun _ => ?_)
      · exact step 0 s2 h12 (Or.inl rfl)
      · rw [wp_bind]
        refine wp_getBitM fun w s3 h3 => ?_
        rw [wp_bind, wp_pure]
        refine step _ s3 (h12.trans h3) ?_
        cases w <;> simp

/-- The whole of `decode_mcu_ac_refine`. -/
theorem wp_decodeMcuAcRefine {t : HuffmanTable} {s : B} (ht : ¬ pn → TableOk t)
    (h1s : 1 ≤ s.bs.specStart) (hss : s.bs.specStart ≤ s.bs.specEnd) (hse : s.bs.specEnd ≤ 63)
    (hb : b.length = 64) {Q : List I16 → B → Prop}
    (hQ : ∀ b' s', SameP s s' →
      RefFinal (1#16 <<< s.bs.succLow) s.bs.specStart s.bs.specEnd b b' → Q b' s')
    (hE : ∀ e s', SameP s s' → E e s') :
    wp pn dv (decodeMcuAcRefine t b) Q E s := by
  have hinit : ∀ k, RefInv (1#16 <<< s.bs.succLow) s.bs.specStart k b b := fun k => .init hb
  unfold decodeMcuAcRefine
  rw [wp_bind, wp_get]
  simp only
  have fin : ∀ (k : Nat) (b' : List I16) (s1 : B), SameP s s1 →
      ((k ≤ s.bs.specEnd ∧ s.bs.specStart ≤ k ∧
          RefInv (1#16 <<< s.bs.succLow) s.bs.specStart k b b') ∨
        (s.bs.specEnd < k ∧
          RefFinal (1#16 <<< s.bs.succLow) s.bs.specStart s.bs.specEnd b b')) →
      wp pn dv (do
        let s' ← M.get
        if s'.bs.eobRun > 0 then
          let block ← if (b'.drop 1).any (· ≠ 0) then do
              refill
              eobRefine (1#16 <<< s.bs.succLow) s.bs.specEnd (s.bs.specEnd + 1 - k) k b'
            else pure b'
          M.modify fun s => { s with bs := { s.bs with eobRun := s.bs.eobRun - 1 } }
          pure block
        else pure b') Q E s1 := by
    intro k b' s1 h1 hor
    have hfin : RefFinal (1#16 <<< s.bs.succLow) s.bs.specStart s.bs.specEnd b b' := by
      rcases hor with ⟨a1, a2, a3⟩ | ⟨a1, a2⟩
      · have : ∀ n, RefInv (1#16 <<< s.bs.succLow) s.bs.specStart (k + n) b b' := by
          intro n
          induction n with
          | zero => exact a3
          | succ n ih => exact ih.skip
        have := this (s.bs.specEnd + 1 - k)
        rw [Nat.add_sub_cancel' (by omega)] at this
        exact this.final
      · exact a2
    rw [wp_bind, wp_get]
    refine wp_ite_of (fun hpos => ?_) (fun _ => hQ _ _ h1 hfin)
    dsimp only
    refine wp_ite_of (fun hany => ?_) (fun _ => ?_)
    · rw [wp_bind]
      refine wp_refill (fun s2 h2 => ?_) (fun s2 h2 => hE _ _ (h1.trans h2.toSameP))
      have h12 := h1.trans h2.toSameP
      rw [wp_bind]
      rcases hor with ⟨a1, a2, a3⟩ | ⟨a1, a2⟩
      · refine wp_eobRefine hse _ k b' s2 (by omega) a2 a3 ?_ ?_
        · intro b'' s3 h3 hf
          rw [wp_bind, wp_modify]
          have h := h12.trans h3.toSameP
          exact hQ _ _ ⟨h.sh, h.sl, h.ss, h.se, h.rd, h.marker⟩ hf
        · intro e s3 h3
          exact hE _ _ (h12.trans h3.toSameP)
      · rw [show s.bs.specEnd + 1 - k = 0 by omega]
        rw [eobRefine, wp_pure, wp_bind, wp_modify]
        exact hQ _ _ ⟨h12.sh, h12.sl, h12.ss, h12.se, h12.rd, h12.marker⟩ hfin
    · rw [wp_bind, wp_pure, wp_bind, wp_modify]
      exact hQ _ _ ⟨h1.sh, h1.sl, h1.ss, h1.se, h1.rd, h1.marker⟩ hfin
  refine wp_ite_of (fun h0 => ?_) (fun h0 => ?_)
  · rw [wp_bind]
    refine wp_refineLoop ht h1s hse 65 s.bs.specStart b s (Nat.le_refl _) hss (by omega)
      (hinit _) ?_ ?_ hE
    · intro k' b'' s' h hk hk2 hi
      exact fin k' b'' s' h (Or.inl ⟨hk, hk2, hi⟩)
    · intro k' b'' s' h hk hi
      exact fin k' b'' s' h (Or.inr ⟨hk, hi⟩)
  · rw [wp_bind, wp_pure]
    exact fin _ _ s (SameP.refl s) (Or.inl ⟨hss, Nat.le_refl _, hinit _⟩)

end
end Zune

namespace Zune
open M (wp wp_bind wp_get wp_pure wp_modify wp_ite_of wp_idx wp_idx_of)
section
variable {pn dv : Prop} {E : DecodeErr → B → Prop} {bit : I16} {se : Nat}

/-! ### Totality for every band -/

theorem wp_advanceNonzero_total (n : Nat) {Q : Nat × List I16 → B → Prop} :
    ∀ (k r : Nat) (b' : List I16) (s : B), b'.length = 64 →
      (∀ k' b'' s', Same s s' → k ≤ k' → b''.length = 64 → Q (k', b'') s') →
      (∀ e s', Same s s' → E e s') →
      wp pn dv (advanceNonzero bit se n k r b') Q E s := by
  induction n with
  | zero =>
    intro k r b' s hl hQ hE
    exact hQ k b' s (Same.refl s) (Nat.le_refl _) hl
  | succ n ih =>
    intro k r b' s hl hQ hE
    unfold advanceNonzero
    refine wp_ite_of (fun _ => ?_) (fun _ => hQ k b' s (Same.refl s) (Nat.le_refl _) hl)
    rw [wp_bind]
    refine wp_zz (and63_lt _) fun z hz hlt => ?_
    rw [wp_bind]
    refine idx_block (by omega) fun c hc => ?_
    refine wp_ite_of (fun hne => ?_) (fun h0 => ?_)
    · rw [wp_bind]
      refine wp_getBitM fun v s1 h1 => ?_
      rw [wp_bind]
      refine wp_setBlock (by omega) ?_
      rw [wp_bind]
      refine wp_refillIfBelow (fun s2 h2 => ?_) (fun s2 h2 => hE _ _ (h1.trans h2))
      have h12 := h1.trans h2
      exact ih (k + 1) r _ s2 (by simp [hl])
        (fun k' b'' s' h a1 => hQ k' b'' s' (h12.trans h) (by omega))
        (fun e s' h => hE e s' (h12.trans h))
    · cases r with
      | zero => exact hQ k b' s (Same.refl s) (Nat.le_refl _) hl
      | succ r => exact ih (k + 1) r _ s hl (fun k' b'' s' h a1 => hQ k' b'' s' h (by omega)) hE

theorem wp_eobRefine_total (n : Nat) {Q : List I16 → B → Prop} :
    ∀ (k : Nat) (b' : List I16) (s : B), b'.length = 64 →
      (∀ b'' s', Same s s' → b''.length = 64 → Q b'' s') →
      (∀ e s', Same s s' → E e s') →
      wp pn dv (eobRefine bit se n k b') Q E s := by
  induction n with
  | zero =>
    intro k b' s hl hQ hE
    exact hQ b' s (Same.refl s) hl
  | succ n ih =>
    intro k b' s hl hQ hE
    unfold eobRefine
    refine wp_ite_of (fun _ => ?_) (fun _ => hQ b' s (Same.refl s) hl)
    rw [wp_bind]
    refine wp_zz (and63_lt _) fun z hz hlt => ?_
    rw [wp_bind]
    refine idx_block (by omega) fun c hc => ?_
    dsimp only
    refine wp_ite_of (fun hne => ?_) (fun h0 => ?_)
    · rw [wp_bind]
      refine wp_getBitM fun v s1 h1 => ?_
      rw [wp_bind]
      refine wp_setBlock (by omega) ?_
      rw [wp_bind]
      refine wp_refillIfBelow (fun s2 h2 => ?_) (fun s2 h2 => hE _ _ (h1.trans h2))
      have h12 := h1.trans h2
      exact ih (k + 1) _ s2 (by simp [hl]) (fun b'' s' h => hQ b'' s' (h12.trans h))
        (fun e s' h => hE e s' (h12.trans h))
    · rw [wp_bind, wp_pure, wp_bind]
      refine wp_refillIfBelow (fun s2 h2 => ?_) (fun s2 h2 => hE _ _ h2)
      exact ih (k + 1) _ s2 hl
        (fun b'' s' h => hQ b'' s' (h2.trans h)) (fun e s' h => hE e s' (h2.trans h))

theorem wp_refineLoop_total {t : HuffmanTable} (ht : ¬ pn → TableOk t)
    (fuel : Nat) {Q : Nat × List I16 → B → Prop} :
    ∀ (k : Nat) (b' : List I16) (s : B), se < fuel + k → 0 < fuel → b'.length = 64 →
      (∀ k' b'' s', SameP s s' → b''.length = 64 → Q (k', b'') s') →
      (∀ e s', SameP s s' → E e s') →
      wp pn dv (refineLoop t bit se fuel k b') Q E s := by
  induction fuel with
  | zero => intro k b' s _ h; omega
  | succ fuel ih =>
    intro k b' s hf _ hl hQ hE
    unfold refineLoop
    simp only [HUFF_LOOKAHEAD]
    rw [wp_bind]
    refine wp_refill (fun s1 h1 => ?_) (fun s1 h1 => hE _ _ h1.toSameP)
    rw [wp_bind, wp_get, wp_bind]
    refine wp_lookup ht fun e he => ?_
    rw [wp_bind]
    refine wp_decodeHuff ht he (fun v s2 h2 => ?_) (fun s2 h2 => hE _ _ (h1.trans h2).toSameP)
    have h12 := h1.trans h2
    refine wp_ite_of (fun _ => ?_) (fun _ => wp_ite_of (fun _ => hE _ _ h12.toSameP) (fun _ => ?_))
    · rw [wp_bind]
      refine wp_getBitsM fun w s3 h3 => ?_
      rw [wp_bind, wp_modify]
      have h := (h12.trans h3).toSameP
      exact hQ _ _ _ ⟨h.sh, h.sl, h.ss, h.se, h.rd, h.marker⟩ hl
    · have step : ∀ (v' : I16) (s3 : B), Same s s3 →
          wp pn dv (do
            let (k, block) ← advanceNonzero bit se (se + 1 - k) k (v >>> 4) b'
            let block ← if v' ≠ 0 then do
                let i ← zz (k &&& 63)
                setBlock block i v'
              else pure block
            if k + 1 > se then pure (k + 1, block)
            else refineLoop t bit se fuel (k + 1) block) Q E s3 := by
        intro v' s3 h3
        rw [wp_bind]
        refine wp_advanceNonzero_total _ k _ b' s3 hl ?_ (fun e s4 h4 => hE _ _ (h3.trans h4).toSameP)
        intro k' b'' s4 h4 hk1 hl'
        have h := h3.trans h4
        dsimp only
        refine wp_ite_of (fun hne => ?_) (fun h0 => ?_)
        · rw [wp_bind]
          refine wp_zz (and63_lt _) fun z hz hlt => ?_
          rw [wp_bind]
          refine wp_setBlock (by omega) ?_
          refine wp_ite_of (fun hgt => hQ _ _ _ h.toSameP (by simp [hl'])) (fun hle => ?_)
          exact ih (k' + 1) _ s4 (by omega) (by omega) (by simp [hl'])
              (fun k'' b3 s' h' => hQ k'' b3 s' (h.toSameP.trans h'))
              (fun e s' h' => hE e s' (h.toSameP.trans h'))
        · rw [wp_bind, wp_pure]
          refine wp_ite_of (fun hgt => hQ _ _ _ h.toSameP hl') (fun hle => ?_)
          exact ih (k' + 1) _ s4 (by omega) (by omega) hl'
              (fun k'' b3 s' h' => hQ k'' b3 s' (h.toSameP.trans h'))
              (fun e s' h' => hE e s' (h.toSameP.trans h'))
      refine wp_ite_of (fun _ => ?_) (fun _ => ?_)
      · exact step 0 s2 h12
      · rw [wp_bind]
        refine wp_getBitM fun w s3 h3 => ?_
        rw [wp_bind, wp_pure]
        exact step _ s3 (h12.trans h3)

theorem wp_decodeMcuAcRefine_total {t : HuffmanTable} {s : B} (ht : ¬ pn → TableOk t)
    (hse : s.bs.specEnd ≤ 64) {b : List I16} (hb : b.length = 64) {Q : List I16 → B → Prop}
    (hQ : ∀ b' s', SameP s s' → b'.length = 64 → Q b' s')
    (hE : ∀ e s', SameP s s' → E e s') :
    wp pn dv (decodeMcuAcRefine t b) Q E s := by
  unfold decodeMcuAcRefine
  rw [wp_bind, wp_get]
  simp only
  have fin : ∀ (k : Nat) (b' : List I16) (s1 : B), SameP s s1 → b'.length = 64 →
      wp pn dv (do
        let s' ← M.get
        if s'.bs.eobRun > 0 then
          let block ← if (b'.drop 1).any (· ≠ 0) then do
              refill
              eobRefine (1#16 <<< s.bs.succLow) s.bs.specEnd (s.bs.specEnd + 1 - k) k b'
            else pure b'
          M.modify fun s => { s with bs := { s.bs with eobRun := s.bs.eobRun - 1 } }
          pure block
        else pure b') Q E s1 := by
    intro k b' s1 h1 hl
    rw [wp_bind, wp_get]
    refine wp_ite_of (fun hpos => ?_) (fun _ => hQ _ _ h1 hl)
    dsimp only
    refine wp_ite_of (fun hany => ?_) (fun _ => ?_)
    · rw [wp_bind]
      refine wp_refill (fun s2 h2 => ?_) (fun s2 h2 => hE _ _ (h1.trans h2.toSameP))
      have h12 := h1.trans h2.toSameP
      rw [wp_bind]
      refine wp_eobRefine_total _ k b' s2 hl ?_ (fun e s3 h3 => hE _ _ (h12.trans h3.toSameP))
      intro b'' s3 h3 hf
      rw [wp_bind, wp_modify]
      have h := h12.trans h3.toSameP
      exact hQ _ _ ⟨h.sh, h.sl, h.ss, h.se, h.rd, h.marker⟩ hf
    · rw [wp_bind, wp_pure, wp_bind, wp_modify]
      exact hQ _ _ ⟨h1.sh, h1.sl, h1.ss, h1.se, h1.rd, h1.marker⟩ hl
  refine wp_ite_of (fun h0 => ?_) (fun h0 => ?_)
  · rw [wp_bind]
    refine wp_refineLoop_total ht 65 s.bs.specStart b s (by omega) (by omega) hb ?_ hE
    intro k' b'' s' h hl
    exact fin k' b'' s' h hl
  · rw [wp_bind, wp_pure]
    exact fin _ _ s (SameP.refl s) hb

end
end Zune
