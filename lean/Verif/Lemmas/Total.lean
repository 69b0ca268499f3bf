import Verif.Lemmas.AcLoop
/-! Totality of the entropy decoder: weakest preconditions over arbitrary reader states. -/

namespace Zune
open Spec M

/-- The marker `m` is somewhere in `l`. -/
def Announced (m : Marker) (l : List UInt8) : Prop :=
  ∃ a c b, l = a ++ 0xFF :: c :: b ∧ Marker.fromU8 c = some m

theorem Announced.of_suffix {m : Marker} {l l' : List UInt8} (h : Announced m l) (hs : l <:+ l') :
    Announced m l' := by
  obtain ⟨a, c, b, rfl, h⟩ := h
  obtain ⟨t, rfl⟩ := hs
  exact ⟨t ++ a, c, b, by simp, h⟩

/-- The scan parameters are unchanged, the reader only moves forward, and a new marker is one that
was unread. -/
structure SameP (s s' : B) : Prop where
  sh : s'.bs.succHigh = s.bs.succHigh
  sl : s'.bs.succLow = s.bs.succLow
  ss : s'.bs.specStart = s.bs.specStart
  se : s'.bs.specEnd = s.bs.specEnd
  rd : s'.rd <:+ s.rd
  marker : ∀ m, s'.bs.marker = some m → s.bs.marker = some m ∨ Announced m s.rd

/-- As `SameP`, with the end-of-band run. -/
structure Same (s s' : B) : Prop extends SameP s s' where
  eob : s'.bs.eobRun = s.bs.eobRun

theorem SameP.refl (s : B) : SameP s s := ⟨rfl, rfl, rfl, rfl, List.suffix_refl _, fun _ h => Or.inl h⟩
theorem Same.refl (s : B) : Same s s := ⟨SameP.refl s, rfl⟩
theorem SameP.trans {a b c : B} (h : SameP a b) (h' : SameP b c) : SameP a c :=
  ⟨h'.sh.trans h.sh, h'.sl.trans h.sl, h'.ss.trans h.ss, h'.se.trans h.se, h'.rd.trans h.rd,
    fun m hm => (h'.marker m hm).elim (h.marker m) fun ha => Or.inr (ha.of_suffix h.rd)⟩
theorem Same.trans {a b c : B} (h : Same a b) (h' : Same b c) : Same a c :=
  ⟨h.toSameP.trans h'.toSameP, h'.eob.trans h.eob⟩

theorem readU8_suffix (l : List UInt8) : (readU8 l).2 <:+ l := by
  cases l with
  | nil => exact List.suffix_refl _
  | cons a l => exact List.suffix_cons _ _

theorem skipFill_suffix (b : UInt8) (l : List UInt8) : (skipFill b l).2 <:+ l := by
  induction l generalizing b with
  | nil => unfold skipFill; split <;> exact List.suffix_refl _
  | cons c r ih =>
    unfold skipFill
    split
    · exact (ih c).trans (List.suffix_cons _ _)
    · exact List.suffix_refl _

theorem skipFill_announced (b : UInt8) (l : List UInt8) {m : Marker} (h0 : (skipFill b l).1 ≠ 0)
    (hm : Marker.fromU8 (skipFill b l).1 = some m) : Announced m (0xFF :: b :: l) := by
  induction l generalizing b with
  | nil =>
    unfold skipFill at h0 hm
    by_cases hb : b = 0xFF
    · rw [if_pos hb] at h0; exact absurd rfl h0
    · rw [if_neg hb] at hm; exact ⟨[], b, [], rfl, hm⟩
  | cons c r ih =>
    unfold skipFill at h0 hm
    by_cases hb : b = 0xFF
    · rw [if_pos hb] at h0 hm
      rw [hb]
      exact (ih c h0 hm).of_suffix (List.suffix_cons _ _)
    · rw [if_neg hb] at hm; exact ⟨[], b, c :: r, rfl, hm⟩

theorem refillByte_announced {l rd rd2 : List UInt8} {nb : UInt8} (h1 : readU8 l = (0xFF, rd))
    (h2 : readU8 rd = (nb, rd2)) (hnb : nb ≠ 0) {m : Marker} (h0 : (skipFill nb rd2).1 ≠ 0)
    (hm : Marker.fromU8 (skipFill nb rd2).1 = some m) : Announced m l := by
  cases l with
  | nil => injection h1 with h1 _; exact absurd h1 (by decide)
  | cons a l =>
    injection h1 with e1 e2
    subst e1 e2
    cases l with
    | nil => injection h2 with h2 _; exact absurd h2.symm hnb
    | cons b l =>
      injection h2 with e1 e2
      subst e1 e2
      exact skipFill_announced _ _ h0 hm

/-- The state in a `Step`. -/
def Step.state : Step → B
  | .more s => s
  | .stop s => s
  | .bad s => s

theorem refillByte_same (s : B) : Same s (refillByte s).state := by
  have h1 := readU8_suffix s.rd
  unfold refillByte
  rcases hr : readU8 s.rd with ⟨byte, rd⟩
  rw [hr] at h1
  simp only
  split
  · rename_i hb
    subst hb
    have h2 := readU8_suffix rd
    rcases hr2 : readU8 rd with ⟨nb, rd2⟩
    rw [hr2] at h2
    simp only
    split
    · rename_i hnb
      have h3 := skipFill_suffix nb rd2
      have h4 := fun m => refillByte_announced hr hr2 hnb (m := m)
      rcases hr3 : skipFill nb rd2 with ⟨nb3, rd3⟩
      rw [hr3] at h3 h4
      simp only
      split
      · rename_i h0
        rcases hm : Marker.fromU8 nb3 with _ | m
        · exact ⟨⟨rfl, rfl, rfl, rfl, h3.trans (h2.trans h1), fun _ h => Or.inl h⟩, rfl⟩
        · refine ⟨⟨rfl, rfl, rfl, rfl, h3.trans (h2.trans h1), fun m' h => Or.inr ?_⟩, rfl⟩
          exact h4 m' h0 (hm.trans h)
      · exact ⟨⟨rfl, rfl, rfl, rfl, h3.trans (h2.trans h1), fun _ h => Or.inl h⟩, rfl⟩
    · exact ⟨⟨rfl, rfl, rfl, rfl, h2.trans h1, fun _ h => Or.inl h⟩, rfl⟩
  · exact ⟨⟨rfl, rfl, rfl, rfl, h1, fun _ h => Or.inl h⟩, rfl⟩

section
variable {pn dv : Prop} {E : DecodeErr → B → Prop} {s : B}

theorem wp_refillBytes (n : Nat) {Q : Unit → B → Prop} (hQ : ∀ s', Same s s' → Q () s')
    (hE : ∀ s', Same s s' → E .format s') : wp pn dv (refillBytes n) Q E s := by
  induction n generalizing s with
  | zero => exact hQ _ ⟨⟨rfl, rfl, rfl, rfl, List.suffix_refl _, fun _ h => Or.inl h⟩, rfl⟩
  | succ n ih =>
    have h := refillByte_same s
    rw [wp, show refillBytes (n + 1) s = (match refillByte s with
      | .more s' => refillBytes n s'
      | .stop s' => (.ok (), s')
      | .bad s' => (.err .format, s')) from rfl]
    rcases hr : refillByte s with s' | s' | s' <;> rw [hr] at h <;> simp only [Step.state] at h
    · exact ih (fun s'' h' => hQ s'' (h.trans h')) (fun s'' h' => hE s'' (h.trans h'))
    · exact hQ s' h
    · exact hE s' h

theorem wp_refill {Q : Unit → B → Prop} (hQ : ∀ s', Same s s' → Q () s')
    (hE : ∀ s', Same s s' → E .format s') : wp pn dv refill Q E s := by
  by_cases h : s.bs.bitsLeft ≤ 32 ∧ s.bs.marker = none
  · unfold wp
    rw [refill_slow s h.1 h.2]
    exact wp_refillBytes 4 hQ hE
  · by_cases hm : s.bs.marker ≠ none
    · have e : refill s = (.ok (), { s with bs := { s.bs with bitsLeft := 63 } }) := by
        rw [refill, if_neg h, if_pos hm]
      exact wp_of_ok e (hQ _ ⟨⟨rfl, rfl, rfl, rfl, List.suffix_refl _, fun _ h => Or.inl h⟩, rfl⟩)
    · have e : refill s = (.ok (), s) := by
        rw [refill, if_neg h, if_neg hm]
      exact wp_of_ok e (hQ _ (Same.refl s))

theorem wp_refillIfBelow {n : Nat} {Q : Unit → B → Prop} (hQ : ∀ s', Same s s' → Q () s')
    (hE : ∀ s', Same s s' → E .format s') : wp pn dv (refillIfBelow n) Q E s := by
  by_cases h : s.bs.bitsLeft < n
  · unfold wp
    rw [show refillIfBelow n s = refill s by rw [refillIfBelow, if_pos h]]
    exact wp_refill hQ hE
  · exact wp_of_ok (by rw [refillIfBelow, if_neg h]) (hQ _ (Same.refl s))

theorem same_drop (n : Nat) : Same s { s with bs := s.bs.drop n } :=
  ⟨⟨rfl, rfl, rfl, rfl, List.suffix_refl _, fun _ h => Or.inl h⟩, rfl⟩

theorem wp_getBitsM {n : Nat} {Q : I32 → B → Prop} (hQ : ∀ v s', Same s s' → Q v s') :
    wp pn dv (getBitsM n) Q E s :=
  hQ _ _ ⟨⟨rfl, rfl, rfl, rfl, List.suffix_refl _, fun _ h => Or.inl h⟩, rfl⟩

theorem wp_getBitM {Q : Bool → B → Prop} (hQ : ∀ v s', Same s s' → Q v s') :
    wp pn dv getBitM Q E s :=
  hQ _ _ (same_drop 1)

/-- The arrays of a table have the sizes the Rust types prescribe, and lookup entries hold a
length of at most 10. -/
structure TableOk (t : HuffmanTable) : Prop where
  lookup : ∀ i < 512, ∃ e, t.lookup[i]? = some e ∧ e >>> 9 ≤ 10
  maxcode : t.maxcode.length = 18
  offset : t.offset.length = 18
  values : t.values.length = 256
  ac : ∀ L, t.acLookup = some L → L.length = 512

theorem wp_slowLen {mc : List Int} (w : Int) (n : Nat) {Q : Nat → B → Prop}
    (hmc : ¬ pn → mc.length = 18) :
    ∀ len, len + n = 17 → (∀ l, len ≤ l → l ≤ 17 → Q l s) →
      wp pn dv (slowLen mc w n len) Q E s := by
  induction n with
  | zero => intro len h hQ; exact hQ len (Nat.le_refl _) (by omega)
  | succ n ih =>
    intro len h hQ
    unfold slowLen
    rw [wp_bind, wp_idx]
    by_cases hl : len < mc.length
    · refine Or.inl ⟨mc[len], List.getElem?_eq_getElem hl, ?_⟩
      refine wp_ite_of (fun _ => hQ len (Nat.le_refl _) (by omega)) fun _ => ?_
      exact ih (len + 1) (by omega) fun l h1 h2 => hQ l (by omega) h2
    · refine Or.inr ⟨List.getElem?_eq_none (by omega), ?_⟩
      by_contra hp
      have := hmc hp; omega

theorem wp_decodeHuff {t : HuffmanTable} (ht : ¬ pn → TableOk t) {entry : Nat}
    (he : ¬ pn → entry >>> 9 ≤ 10) {Q : Nat → B → Prop}
    (hQ : ∀ v s', Same s s' → Q v s') (hE : ∀ s', Same s s' → E .huffmanDecode s') :
    wp pn dv (decodeHuff t entry) Q E s := by
  unfold decodeHuff
  simp only [HUFF_LOOKAHEAD]
  refine wp_ite_of (fun hlen => ?_) (fun _ => ?_)
  · rw [wp_bind, wp_get, wp_bind]
    by_cases h17 : entry >>> 9 ≤ 17
    · refine wp_slowLen _ _ (fun hp => (ht hp).maxcode) _ (by omega) fun l h1 h2 => ?_
      refine wp_ite_of (fun _ => hE _ (Same.refl _)) fun h => ?_
      rw [wp_bind, wp_idx]
      by_cases ho : l < t.offset.length
      · refine Or.inl ⟨_, List.getElem?_eq_getElem ho, ?_⟩
        rw [wp_bind, wp_idx]
        by_cases hv : ((((s.bs.peek 16 >>> (16 - l) : Nat) : Int) + t.offset[l]) % 256).toNat <
            t.values.length
        · exact Or.inl ⟨_, List.getElem?_eq_getElem hv, hQ _ _ (same_drop l)⟩
        · refine Or.inr ⟨List.getElem?_eq_none (by omega), ?_⟩
          by_contra hp
          have := (ht hp).values
          have := Int.emod_lt_of_pos (((s.bs.peek 16 >>> (16 - l) : Nat) : Int) + t.offset[l])
            (show (0 : Int) < 256 by norm_num)
          have := Int.emod_nonneg (((s.bs.peek 16 >>> (16 - l) : Nat) : Int) + t.offset[l])
            (show (256 : Int) ≠ 0 by norm_num)
          omega
      · refine Or.inr ⟨List.getElem?_eq_none (by omega), ?_⟩
        by_contra hp
        have := (ht hp).offset; omega
    · have e0 : 17 - entry >>> 9 = 0 := by omega
      rw [e0]
      show wp pn dv _ _ E s
      refine wp_ite_of (fun h => by omega) fun h => ?_
      rw [wp_bind, wp_idx]
      by_cases ho : entry >>> 9 < t.offset.length
      · refine Or.inl ⟨_, List.getElem?_eq_getElem ho, ?_⟩
        rw [wp_bind, wp_idx]
        by_cases hv : ((((s.bs.peek 16 >>> (16 - entry >>> 9) : Nat) : Int) +
            t.offset[entry >>> 9]) % 256).toNat < t.values.length
        · exact Or.inl ⟨_, List.getElem?_eq_getElem hv, hQ _ _ (same_drop _)⟩
        · refine Or.inr ⟨List.getElem?_eq_none (by omega), ?_⟩
          by_contra hp
          have := (ht hp).values
          have := Int.emod_lt_of_pos (((s.bs.peek 16 >>> (16 - entry >>> 9) : Nat) : Int) +
            t.offset[entry >>> 9]) (show (0 : Int) < 256 by norm_num)
          have := Int.emod_nonneg (((s.bs.peek 16 >>> (16 - entry >>> 9) : Nat) : Int) +
            t.offset[entry >>> 9]) (show (256 : Int) ≠ 0 by norm_num)
          omega
      · refine Or.inr ⟨List.getElem?_eq_none (by omega), ?_⟩
        by_contra hp
        have := he hp
        omega
  · exact hQ _ _ (same_drop _)

theorem genOffsets_length (codes : List Nat) (ps : List (Nat × Nat)) (p : Nat) (mc off : List Int) :
    (genOffsets codes ps p mc off).1.length = mc.length ∧
      (genOffsets codes ps p mc off).2.length = off.length := by
  induction ps generalizing p mc off with
  | nil => exact ⟨rfl, rfl⟩
  | cons q ps ih =>
    obtain ⟨l, n⟩ := q
    unfold genOffsets
    split
    · have := ih p (mc.set l (-1)) off; simpa using this
    · have := ih (p + n) mc (off.set l ((p : Int) - (codes[p]?.getD 0 : Nat))); simpa using this

theorem Accepted.ok {counts values : List Nat} {isDc prog : Bool} {t : HuffmanTable}
    (ht : Accepted counts values isDc prog t) : TableOk t := by
  have hp := lengths_sorted counts ht.len
  have hll := lengths_length counts
  have hsum := ht.sum
  have hvl := ht.vlen
  obtain ⟨hK, -, ⟨m, hm, -, hmc, hoff⟩, hlk, hac, -, hv⟩ := table_parts ht.len ht.table
  refine ⟨?_, ?_, ?_, by rw [hv]; exact ht.vlen, ?_⟩
  · intro w hw
    obtain ⟨g1, g2⟩ := genLookup_spec hp hK (values := values) (by omega) ht.vb (w * 128) (by omega)
    have e : w * 128 / 128 = w := by omega
    rw [e] at g1 g2
    have hlk' : t.lookup = genLookup (entriesOf (lengths counts) values)
      (List.replicate 512 (10 <<< 9)) := hlk
    rw [← hlk'] at g1 g2
    by_cases hex : ∃ k, ∃ hk : k < (lengths counts).length, (lengths counts)[k] ≤ 9 ∧
        Covers (lengths counts) (w * 128) k
    · obtain ⟨k, hk, h9, hc⟩ := hex
      refine ⟨_, g1 k hk h9 hc, ?_⟩
      have := ht.vb _ (List.getElem_mem (show k < values.length by omega))
      rw [Nat.shiftRight_eq_div_pow]; omega
    · exact ⟨_, g2 fun k hk h9 hc => hex ⟨k, hk, h9, hc⟩, by decide⟩
  · rw [hmc, List.length_set, (genOffsets_length _ _ _ _ _).1, hm]
  · rw [hoff, List.length_set, (genOffsets_length _ _ _ _ _).2, List.length_replicate]
  · intro L hL
    rw [hL] at hac
    cases isDc with
    | true => simp at hac
    | false =>
      obtain ⟨h, -⟩ := genFastAc_spec hp hK (values := values) (by omega) prog 0 (by omega)
      rw [if_neg (by simp)] at hac
      rw [Option.some.inj hac]; exact h

theorem wp_lookup {t : HuffmanTable} (ht : ¬ pn → TableOk t) {b : BitStream} {Q : Nat → B → Prop}
    (hQ : ∀ e, (¬ pn → e >>> 9 ≤ 10) → Q e s) :
    wp pn dv (M.idx t.lookup (b.peek 9)) Q E s := by
  rw [wp_idx]
  cases h : t.lookup[b.peek 9]? with
  | none =>
    refine Or.inr ⟨rfl, ?_⟩
    by_contra hp
    obtain ⟨e, he, -⟩ := (ht hp).lookup _ (peek9_lt b)
    rw [h] at he; cases he
  | some e =>
    refine Or.inl ⟨e, rfl, hQ e fun hp => ?_⟩
    obtain ⟨e', he, hle⟩ := (ht hp).lookup _ (peek9_lt b)
    rw [h] at he; cases he; exact hle

theorem wp_zz {i : Nat} {Q : Nat → B → Prop} (h : i < 64)
    (hQ : ∀ z, zigzag[i]? = some z → z < 64 → Q z s) : wp pn dv (zz i) Q E s := by
  obtain ⟨z, h1, h2, h3⟩ := zz_ok i h s
  exact wp_of_ok h3 (hQ z h1 h2)

theorem wp_setBlock {block : List I16} {i : Nat} {v : I16} {Q : List I16 → B → Prop}
    (h : i < block.length) (hQ : Q (block.set i v) s) : wp pn dv (setBlock block i v) Q E s :=
  wp_of_ok (by rw [setBlock, if_pos h]) hQ

theorem and63_lt (n : Nat) : n &&& 63 < 64 := by
  have := @Nat.and_le_right n 63; omega

theorem wp_decodeDc {t : HuffmanTable} (ht : ¬ pn → TableOk t) {pred : I32} {Q : I32 → B → Prop}
    (hQ : ∀ v s', Same s s' → Q v s') (hE : ∀ e s', Same s s' → E e s') :
    wp pn dv (decodeDc t pred) Q E s := by
  unfold decodeDc
  rw [wp_bind]
  refine wp_refillIfBelow (fun s1 h1 => ?_) (fun s1 h1 => hE _ _ h1)
  rw [wp_bind, wp_get, wp_bind]
  refine wp_lookup ht fun e he => ?_
  rw [wp_bind]
  refine wp_decodeHuff ht he (fun v s2 h2 => ?_) (fun s2 h2 => hE _ _ (h1.trans h2))
  refine wp_ite_of (fun _ => ?_) (fun _ => hQ _ _ (h1.trans h2))
  rw [wp_bind]
  exact wp_getBitsM fun v s3 h3 => hQ _ _ (h1.trans (h2.trans h3))

/-- The AC loop terminates and keeps the block length. -/
theorem wp_acLoop {t : HuffmanTable} {L : List I16} (ht : ¬ pn → TableOk t)
    (hL : ¬ pn → L.length = 512) (fuel : Nat) {Q : List I16 → B → Prop} :
    ∀ (pos : Nat) (block : List I16) (s : B), 64 ≤ fuel + pos → block.length = 64 →
      (∀ b s', Same s s' → b.length = 64 → Q b s') → (∀ e s', Same s s' → E e s') →
      wp pn dv (acLoop t L fuel pos block) Q E s := by
  induction fuel with
  | zero =>
    intro pos block s hf hb hQ hE
    unfold acLoop
    exact wp_ite_of (fun h => by omega) (fun _ => hQ _ _ (Same.refl s) hb)
  | succ fuel ih =>
    intro pos block s hf hb hQ hE
    unfold acLoop
    simp only [HUFF_LOOKAHEAD]
    refine wp_ite_of (fun h => ?_) (fun _ => hQ _ _ (Same.refl s) hb)
    rw [wp_bind]
    refine wp_refill (fun s1 h1 => ?_) (fun s1 h1 => hE _ _ h1)
    rw [wp_bind, wp_get, wp_bind, wp_idx]
    by_cases hl : s1.bs.peek 9 < L.length
    · refine Or.inl ⟨_, List.getElem?_eq_getElem hl, ?_⟩
      rw [wp_bind]
      refine wp_lookup ht fun e he => ?_
      refine wp_ite_of (fun _ => ?_) (fun _ => ?_)
      · rw [wp_bind]
        refine wp_zz (by omega) fun z _ hz => ?_
        rw [wp_bind]
        refine wp_setBlock (by omega) ?_
        rw [wp_bind, wp_modify]
        exact ih _ _ _ (by omega) (by simp [hb])
          (fun b s' h' => hQ b s' (h1.trans ((same_drop _).trans h')))
          (fun e s' h' => hE e s' (h1.trans ((same_drop _).trans h')))
      · rw [wp_bind]
        refine wp_decodeHuff ht he (fun v s2 h2 => ?_) (fun s2 h2 => hE _ _ (h1.trans h2))
        refine wp_ite_of (fun _ => ?_) (fun _ => wp_ite_of (fun _ => ?_) (fun _ => ?_))
        · rw [wp_bind]
          refine wp_getBitsM fun w s3 h3 => ?_
          rw [wp_bind]
          refine wp_zz (and63_lt _) fun z _ hz => ?_
          rw [wp_bind]
          refine wp_setBlock (by omega) ?_
          exact ih _ _ _ (by omega) (by simp [hb])
            (fun b s' h' => hQ b s' (h1.trans (h2.trans (h3.trans h'))))
            (fun e s' h' => hE e s' (h1.trans (h2.trans (h3.trans h'))))
        · exact hQ _ _ (h1.trans h2) hb
        · exact ih _ _ _ (by omega) hb (fun b s' h' => hQ b s' (h1.trans (h2.trans h')))
            (fun e s' h' => hE e s' (h1.trans (h2.trans h')))
    · refine Or.inr ⟨List.getElem?_eq_none (by omega), ?_⟩
      by_contra hp
      have := hL hp
      have := peek9_lt s1.bs
      omega

theorem wp_decodeAc {t : HuffmanTable} (ht : ¬ pn → TableOk t)
    (hL : ¬ pn → t.acLookup ≠ none) {pred : I32} {block : List I16} (hb : block.length = 64)
    {Q : List I16 → B → Prop} (hQ : ∀ b s', Same s s' → b.length = 64 → Q b s')
    (hE : ∀ e s', Same s s' → E e s') : wp pn dv (decodeAc t pred block) Q E s := by
  unfold decodeAc
  rw [wp_bind, wp_unwrap]
  refine ⟨fun L h => ?_, fun h => by by_contra hp; exact hL hp h⟩
  rw [wp_bind]
  refine wp_setBlock (by omega) ?_
  exact wp_acLoop ht (fun hp => (ht hp).ac L h) 64 1 _ s (by omega) (by simp [hb]) hQ hE

theorem wp_decodeProgDcFirst {t : HuffmanTable} (ht : ¬ pn → TableOk t) {pred : I32}
    {Q : I16 × I32 → B → Prop} (hQ : ∀ v s', Same s s' → Q v s') (hE : ∀ e s', Same s s' → E e s') :
    wp pn dv (decodeProgDcFirst t pred) Q E s := by
  unfold decodeProgDcFirst
  rw [wp_bind]
  exact wp_decodeDc ht (fun v s' h => by rw [wp_bind, wp_get, wp_pure]; exact hQ _ _ h) hE

theorem wp_decodeProgDcRefine {c : I16}
    {Q : I16 → B → Prop} (hQ : ∀ v s', Same s s' → v = c ∨ v = c + (1#16 <<< s.bs.succLow) → Q v s')
    (hE : ∀ e s', Same s s' → E e s') :
    wp pn dv (decodeProgDcRefine c) Q E s := by
  unfold decodeProgDcRefine
  rw [wp_bind]
  refine wp_refillIfBelow (fun s1 h1 => ?_) (fun s1 h1 => hE _ _ h1)
  rw [wp_bind]
  refine wp_getBitM fun b s2 h2 => ?_
  rw [wp_bind, wp_get]
  have h := h1.trans h2
  refine wp_ite_of (fun _ => ?_) (fun _ => hQ _ _ h (Or.inl rfl))
  exact hQ _ _ h (Or.inr (by rw [h.sl]))

theorem wp_acFirstLoop {t : HuffmanTable} {L : List I16} {shift specEnd : Nat}
    (ht : ¬ pn → TableOk t) (hL : ¬ pn → L.length = 512) (fuel : Nat) {Q : List I16 → B → Prop} :
    ∀ (k : Nat) (block : List I16) (s : B), specEnd < fuel + k → 0 < fuel → block.length = 64 →
      (∀ b s', SameP s s' → b.length = 64 → Q b s') → (∀ e s', SameP s s' → E e s') →
      wp pn dv (acFirstLoop t L shift specEnd fuel k block) Q E s := by
  induction fuel with
  | zero => intro k block s hf h0; omega
  | succ fuel ih =>
    intro k block s hf h0 hb hQ hE
    unfold acFirstLoop
    simp only [HUFF_LOOKAHEAD]
    rw [wp_bind]
    refine wp_refill (fun s1 h1 => ?_) (fun s1 h1 => hE _ _ h1.toSameP)
    rw [wp_bind, wp_get, wp_bind, wp_idx]
    by_cases hl : s1.bs.peek 9 < L.length
    · refine Or.inl ⟨_, List.getElem?_eq_getElem hl, ?_⟩
      rw [wp_bind]
      refine wp_lookup ht fun e he => ?_
      refine wp_ite_of (fun _ => ?_) (fun _ => ?_)
      · rw [wp_bind]
        refine wp_zz (by omega) fun z _ hz => ?_
        rw [wp_bind]
        refine wp_setBlock (by omega) ?_
        rw [wp_bind, wp_modify]
        refine wp_ite_of (fun _ => hQ _ _ (h1.trans (same_drop _)).toSameP (by simp [hb]))
          (fun _ => ?_)
        exact ih _ _ _ (by omega) (by omega) (by simp [hb])
          (fun b s' h' => hQ b s' ((h1.trans (same_drop _)).toSameP.trans h'))
          (fun e s' h' => hE e s' ((h1.trans (same_drop _)).toSameP.trans h'))
      · rw [wp_bind]
        refine wp_decodeHuff ht he (fun v s2 h2 => ?_)
          (fun s2 h2 => hE _ _ (h1.trans h2).toSameP)
        refine wp_ite_of (fun _ => ?_) (fun _ => wp_ite_of (fun _ => ?_) (fun _ => wp_ite_of ?_ ?_))
        · rw [wp_bind]
          refine wp_getBitsM fun w s3 h3 => ?_
          rw [wp_bind]
          refine wp_zz (and63_lt _) fun z _ hz => ?_
          rw [wp_bind]
          refine wp_setBlock (by omega) ?_
          have h := (h1.trans (h2.trans h3)).toSameP
          refine wp_ite_of (fun _ => hQ _ _ h (by simp [hb])) (fun _ => ?_)
          exact ih _ _ _ (by omega) (by omega) (by simp [hb])
            (fun b s' h' => hQ b s' (h.trans h')) (fun e s' h' => hE e s' (h.trans h'))
        · rw [wp_bind]
          refine wp_getBitsM fun w s3 h3 => ?_
          rw [wp_bind, wp_modify]
          have h := (h1.trans (h2.trans h3)).toSameP
          exact hQ _ _ ⟨h.sh, h.sl, h.ss, h.se, h.rd, h.marker⟩ hb
        · intro _
          exact hQ _ _ (h1.trans h2).toSameP hb
        · intro _
          have h := (h1.trans h2).toSameP
          exact ih _ _ _ (by omega) (by omega) hb
            (fun b s' h' => hQ b s' (h.trans h')) (fun e s' h' => hE e s' (h.trans h'))
    · refine Or.inr ⟨List.getElem?_eq_none (by omega), ?_⟩
      by_contra hp
      have := hL hp
      have := peek9_lt s1.bs
      omega

theorem wp_decodeMcuAcFirst {t : HuffmanTable} (ht : ¬ pn → TableOk t)
    (hL : ¬ pn → t.acLookup ≠ none) {block : List I16} (hb : block.length = 64)
    (hse : s.bs.specEnd ≤ 64)
    {Q : List I16 → B → Prop} (hQ : ∀ b s', SameP s s' → b.length = 64 → Q b s')
    (hE : ∀ e s', SameP s s' → E e s') : wp pn dv (decodeMcuAcFirst t block) Q E s := by
  unfold decodeMcuAcFirst
  rw [wp_bind, wp_get, wp_bind, wp_unwrap]
  refine ⟨fun L h => ?_, fun h => by by_contra hp; exact hL hp h⟩
  exact wp_acFirstLoop ht (fun hp => (ht hp).ac L h) 65 _ _ s (by omega) (by omega) hb hQ hE
end
end Zune
