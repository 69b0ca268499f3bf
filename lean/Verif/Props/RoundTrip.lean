import Verif.Props.Accuracy
import Mathlib.Algebra.Order.Round
/-!
# An encoder for all grayscale images

C53 and C57 for every image and every coefficient data: an encoder that needs no condition on the codes.
-/

namespace Zune
open Spec

/-! ### Specification -/

/-- DC symbols of the encoder: 13 categories, with codes of 4 bits. -/
def Spec.allDc : List UInt8 := (List.range 13).map UInt8.ofNat

/-- AC symbols of the encoder: end of block, run of 16 zeros, and all runs and categories, with codes of
8 bits. -/
def Spec.allAc : List UInt8 :=
  ([0x00, 0xF0] ++ (List.range 16).flatMap fun r => (List.range 15).map fun s => 16 * r + s + 1).map
    UInt8.ofNat

/-- Groups of `n` blocks, the last one possibly smaller; one group if `n` is 0. -/
def Spec.chunks (n : Nat) (l : List (List Int)) : List (List (List Int)) :=
  if n = 0 ∨ l.length ≤ n then [l] else l.take n :: Spec.chunks n (l.drop n)
termination_by l.length
decreasing_by
  rw [List.length_drop]
  omega

/-- The file for the blocks `blocks`. -/
def Spec.encodeGray (w h restart : Nat) (quant : List UInt8) (blocks : List (List Int)) : GrayJpeg where
  width := w
  height := h
  quant := quant
  dcCounts := [0, 0, 0, 13] ++ List.replicate 12 0
  dcSymbols := allDc
  acCounts := List.replicate 7 0 ++ [242] ++ List.replicate 8 0
  acSymbols := allAc
  quantDest := 0
  dcDest := 0
  acDest := 0
  restart := restart
  dcWord := fun s => natBits 4 s
  acWord := fun s => natBits 8 ((allAc.map (·.toNat)).idxOf s)
  intervals := chunks restart blocks
  trailer := []

/-- A block that the encoder can code. -/
structure Spec.Codable (b : List Int) : Prop where
  len : b.length = 64
  dc : (dcOfBlock b).natAbs ≤ 2047
  ac : ∀ x ∈ b.tail, x.natAbs ≤ 32767

/-! ### Lemmas -/

theorem chunks_flatten (n : Nat) (l : List (List Int)) : (chunks n l).flatten = l := by
  fun_induction chunks n l with
  | case1 l h => simp
  | case2 l h ih => rw [List.flatten_cons, ih, List.take_append_drop]

theorem chunks_ne_nil (n : Nat) (l : List (List Int)) : chunks n l ≠ [] := by
  rw [chunks]
  split <;> simp

theorem acSymbols_cons (run : Nat) (c : Int) (cs : List Int) : acSymbols run (c :: cs) =
    if c = 0 then acSymbols (run + 1) cs
    else List.replicate (run / 16) (0xF0, []) ++
      (16 * (run % 16) + category c, magnitudeBits c) :: acSymbols 0 cs := by
  cases run <;> rfl

theorem acSymbols_mem {run : Nat} {l : List Int} (h : ∀ x ∈ l, category x ≤ 15) :
    ∀ p ∈ acSymbols run l, (p.1 = 0 ∨ p.1 = 0xF0 ∨ ∃ r s, r < 16 ∧ s < 15 ∧ p.1 = 16 * r + s + 1) ∧
      p.2.length ≤ 15 := by
  induction l generalizing run with
  | nil =>
    intro p hp
    cases run with
    | zero => simp [acSymbols] at hp
    | succ r =>
      simp only [acSymbols, List.mem_singleton] at hp
      subst hp
      exact ⟨Or.inl rfl, by simp⟩
  | cons c cs ih =>
    intro p hp
    have hcs : ∀ x ∈ cs, category x ≤ 15 := fun x hx => h x (List.mem_cons_of_mem _ hx)
    rw [acSymbols_cons] at hp
    split at hp
    · exact ih hcs p hp
    · rename_i hc
      rw [List.mem_append, List.mem_cons] at hp
      rcases hp with hp | rfl | hp
      · rw [List.eq_of_mem_replicate hp]
        exact ⟨Or.inr (Or.inl rfl), by simp⟩
      · have h1 := (category_spec c hc).1
        have h2 := h c List.mem_cons_self
        refine ⟨Or.inr (Or.inr ⟨run % 16, category c - 1, by omega, by omega, by dsimp only; omega⟩), ?_⟩
        simpa using h2
      · exact ih hcs p hp

theorem allDc_mem (s : Nat) (h : s ≤ 12) : (natBits 4 s, s) ∈
    codeBook (([0, 0, 0, 13] ++ List.replicate 12 0 : List UInt8).map (·.toNat)) (allDc.map (·.toNat)) := by
  have : ∀ s : Fin 13, (natBits 4 s, (s : Nat)) ∈
    codeBook (([0, 0, 0, 13] ++ List.replicate 12 0 : List UInt8).map (·.toNat))
      (allDc.map (·.toNat)) := by decide +kernel
  exact this ⟨s, by omega⟩

theorem allAc_mem {s : Nat} (h : s ∈ allAc.map (·.toNat)) :
    (natBits 8 ((allAc.map (·.toNat)).idxOf s), s) ∈ codeBook
      ((List.replicate 7 0 ++ [242] ++ List.replicate 8 0 : List UInt8).map (·.toNat))
      (allAc.map (·.toNat)) := by
  have : ∀ s ∈ allAc.map (·.toNat), (natBits 8 ((allAc.map (·.toNat)).idxOf s), s) ∈ codeBook
      ((List.replicate 7 0 ++ [242] ++ List.replicate 8 0 : List UInt8).map (·.toNat))
      (allAc.map (·.toNat)) := by decide +kernel
  exact this s h

theorem allAc_of {s : Nat}
    (h : s = 0 ∨ s = 0xF0 ∨ ∃ r k, r < 16 ∧ k < 15 ∧ s = 16 * r + k + 1) :
    s ∈ allAc.map (·.toNat) := by
  have h1 : ∀ (r : Fin 16) (k : Fin 15), 16 * (r : Nat) + k + 1 ∈ allAc.map (·.toNat) := by decide +kernel
  rcases h with rfl | rfl | ⟨r, k, hr, hk, rfl⟩
  · decide +kernel
  · decide +kernel
  · exact h1 ⟨r, hr⟩ ⟨k, hk⟩

theorem lastBits_le {word : Nat → List Bool} {k n : Nat} {l : List (Nat × List Bool)} (hk : k ≤ n)
    (h : ∀ p ∈ l, (word p.1 ++ p.2).length ≤ n) : lastBits word k l ≤ n := by
  unfold lastBits
  split
  · rename_i p hp
    exact h p (List.mem_of_getLast? hp)
  · exact hk

section
variable {w h restart : Nat} {quant : List UInt8} {blocks : List (List Int)}

theorem codable_block {pred : Int} {b : List Int} (hp : pred.natAbs ≤ 2047) (hb : Codable b) :
    (encodeGray w h restart quant blocks).codes.Block pred b := by
  have hsz : ∀ x ∈ b.tail, category x ≤ 15 := fun x hx =>
    category_le (by have := hb.ac x hx; omega)
  refine ⟨hb.len, hsz, allDc_mem _ (category_le ?_), fun p hp => allAc_mem (allAc_of (acSymbols_mem hsz p hp).1),
    fun p hp h6 => ?_⟩
  · have := hb.dc
    omega
  · show 9 < (natBits 8 _).length + _
    rw [natBits_length]
    omega

theorem codable_follows {b b' : List Int} (hb : Codable b) (hb' : Codable b') :
    (encodeGray w h restart quant blocks).codes.Follows b b' := by
  left
  show (natBits 4 _ ++ magnitudeBits _).length ≤ 16
  rw [List.length_append, natBits_length, magnitudeBits_length]
  have : category (dcOfBlock b' - dcOfBlock b) ≤ 12 := category_le (by
    have := hb.dc
    have := hb'.dc
    omega)
  omega

theorem codable_blocks {pred : Int} {l : List (List Int)} (hp : pred.natAbs ≤ 2047)
    (hl : ∀ b ∈ l, Codable b) : (encodeGray w h restart quant blocks).codes.Blocks pred l := by
  induction l generalizing pred with
  | nil => trivial
  | cons b bs ih =>
    have hb := hl b List.mem_cons_self
    have hbs : ∀ b' ∈ bs, Codable b' := fun b' h => hl b' (List.mem_cons_of_mem _ h)
    exact ⟨codable_block hp hb, fun b' h' => codable_follows hb (hbs b' (List.mem_of_mem_head? h')),
      ih hb.dc hbs⟩

theorem codable_end {b : List Int} (hb : Codable b) (hne : acSymbols 0 b.tail ≠ []) :
    endBits (encodeGray w h restart quant blocks).acWord b ≤ 24 := by
  have hsz : ∀ x ∈ b.tail, category x ≤ 15 := fun x hx =>
    category_le (by have := hb.ac x hx; omega)
  unfold endBits lastBits
  split
  · rename_i p hp
    have := (acSymbols_mem hsz p (List.mem_of_getLast? hp)).2
    show (natBits 8 _ ++ _).length ≤ 24
    rw [List.length_append, natBits_length]
    omega
  · rename_i hp
    exact absurd (List.getLast?_eq_none_iff.1 hp) hne

theorem acSymbols_ne_nil {run : Nat} {l : List Int} (h : run ≠ 0 ∨ l ≠ []) : acSymbols run l ≠ [] := by
  induction l generalizing run with
  | nil =>
    cases run with
    | zero => simp at h
    | succ r => simp [acSymbols]
  | cons c cs ih =>
    rw [acSymbols_cons]
    split
    · exact ih (Or.inl (by omega))
    · simp

theorem codable_intervals {n : Nat} {l : List (List Int)} (hl : ∀ b ∈ l, Codable b) (hne : l ≠ []) :
    (encodeGray w h restart quant blocks).codes.Intervals n (chunks n l) := by
  fun_induction chunks n l with
  | case1 l hc =>
    exact ⟨hne, codable_blocks (by decide) hl, fun h0 => by omega⟩
  | case2 l hc ih =>
    have hlen : n < l.length := by omega
    have hr := ih (fun b hb => hl b (List.mem_of_mem_drop hb)) (by
      intro e
      have := congrArg List.length e
      rw [List.length_drop, List.length_nil] at this
      omega)
    have hcn := chunks_ne_nil n (l.drop n)
    revert hr hcn
    cases chunks n (l.drop n) with
    | nil => intro _ h; exact absurd rfl h
    | cons iv ivs =>
      intro hr _
      refine ⟨?_, codable_blocks (by decide) fun b hb => hl b (List.mem_of_mem_take hb), ?_, ?_, hr⟩
      · intro e
        have := congrArg List.length e
        rw [List.length_take, List.length_nil] at this
        omega
      · rw [List.length_take]
        omega
      · intro b hb
        have hb' := hl b (List.mem_of_mem_take (List.mem_of_getLast? hb))
        refine codable_end (w := w) (h := h) (restart := restart) (quant := quant) (blocks := blocks) hb'
          (acSymbols_ne_nil (Or.inr ?_))
        intro e
        have := congrArg List.length e
        rw [List.length_tail, hb'.len] at this
        simp at this

/-- All coefficient data can be coded. -/
theorem encodeGray_valid (w0 : 0 < w) (h0 : 0 < h) (wLe : w ≤ 65527) (hLe : h ≤ 65527)
    (hr : restart < 65536) (hq : quant.length = 64) (hl : ∀ b ∈ blocks, Codable b)
    (hn : blocks.length = (h + 7) / 8 * ((w + 7) / 8)) :
    (encodeGray w h restart quant blocks).Valid where
  w0 := w0
  h0 := h0
  wLe := wLe
  hLe := hLe
  quant := hq
  quantDest := by show 0 < 4; decide
  dcDest := by show 0 < 4; decide
  acDest := by show 0 < 4; decide
  restart := hr
  dcLen := by show ([0, 0, 0, 13] ++ List.replicate 12 0 : List UInt8).length = 16; decide
  acLen := by
    show (List.replicate 7 0 ++ [242] ++ List.replicate 8 0 : List UInt8).length = 16; decide
  dcSum := by
    show (([0, 0, 0, 13] ++ List.replicate 12 0 : List UInt8).map (·.toNat)).sum = allDc.length
    decide
  acSum := by
    show ((List.replicate 7 0 ++ [242] ++ List.replicate 8 0 : List UInt8).map (·.toNat)).sum = allAc.length
    decide +kernel
  dcMax := by show allDc.length ≤ 256; decide
  acMax := by show allAc.length ≤ 256; decide +kernel
  dcCode := by
    show CodeExists (([0, 0, 0, 13] ++ List.replicate 12 0 : List UInt8).map (·.toNat))
    unfold CodeExists
    decide +kernel
  acCode := by
    show CodeExists ((List.replicate 7 0 ++ [242] ++ List.replicate 8 0 : List UInt8).map (·.toNat))
    unfold CodeExists
    decide +kernel
  dcSmall := by
    show ∀ v ∈ allDc, v.toNat ≤ 15
    decide
  intervals := codable_intervals hl (by
    intro e
    subst e
    have h1 : 1 ≤ (h + 7) / 8 := by omega
    have h2 : 1 ≤ (w + 7) / 8 := by omega
    have := Nat.mul_le_mul h1 h2
    simp at hn
    omega)
  count := by
    show (chunks restart blocks).flatten.length = _
    rw [chunks_flatten, hn]
    rfl

end

/-- **C53 for all coefficient data.** Any quantised coefficients of any grayscale image, with any
quantisation table and restart interval, are coded by the encoder and come back as the samples of their
inverse transforms. -/
theorem c53_encoder_partial {w h restart : Nat} {quant : List UInt8} {blocks : List (List Int)}
    (w0 : 0 < w) (h0 : 0 < h) (wLe : w ≤ 65527) (hLe : h ≤ 65527)
    (hr : restart < 65536) (hq : quant.length = 64) (hl : ∀ b ∈ blocks, Codable b)
    (hn : blocks.length = (h + 7) / 8 * ((w + 7) / 8)) (cpu : Cpu) (o : Options)
    (hw : w ≤ o.getMaxWidth) (hh : h ≤ o.getMaxHeight) :
    ((Decoder.newWithOptions cpu o).decodeBuffer (encodeGray w h restart quant blocks).bytes).1 =
      if 64 * ((w + 7) / 8) < 9 * w then
        .ok (grayBytes (chooseIdct cpu o.getUseUnsafe) (naturalQuant quant) w h blocks)
      else .panic .worker := by
  have := c53_gray_partial (encodeGray_valid w0 h0 wLe hLe hr hq hl hn) cpu o hw hh
  rw [this]
  show (if _ then Out.ok (grayBytes _ _ w h (chunks restart blocks).flatten) else _) = _
  rw [chunks_flatten]
  rfl

/-! ### Images -/

/-- The quantised transform of 64 samples, in zig-zag order. -/
noncomputable def Spec.quantise (quant : List UInt8) (s : Fin 8 → Fin 8 → ℝ) : List Int :=
  (List.range 64).map fun k =>
    round (idealFdct (fun i j => s i j - 128) (Fin.ofNat 8 (zigzag.getD k 0 / 8))
      (Fin.ofNat 8 (zigzag.getD k 0 % 8)) / (quant.getD k 0).toNat)

/-- The file for the samples `img`. -/
noncomputable def Spec.encodeImage (w h restart : Nat) (quant : List UInt8) (img : Nat → Nat → ℝ) :
    GrayJpeg :=
  encodeGray w h restart quant <| (List.range ((h + 7) / 8 * ((w + 7) / 8))).map fun n =>
    quantise quant fun i j => img (8 * (n / ((w + 7) / 8)) + i) (8 * (n % ((w + 7) / 8)) + j)

theorem quantise_get {quant : List UInt8} {s : Fin 8 → Fin 8 → ℝ} {k : Nat} {i j : Fin 8}
    (hk : zigzag[k]? = some (8 * (i : Nat) + (j : Nat))) : (quantise quant s)[k]? =
      some (round (idealFdct (fun i j => s i j - 128) i j / (quant.getD k 0).toNat)) := by
  have hk64 : k < 64 := by
    have := (List.getElem?_eq_some_iff.1 hk).1
    rwa [zigzag_length] at this
  unfold quantise
  rw [List.getElem?_map, List.getElem?_range hk64]
  simp only [Option.map_some]
  rw [List.getD_eq_getElem?_getD, hk, Option.getD_some]
  have e1 : Fin.ofNat 8 ((8 * (i : Nat) + j) / 8) = i := by
    apply Fin.ext
    show (8 * (i : Nat) + j) / 8 % 8 = i
    omega
  have e2 : Fin.ofNat 8 ((8 * (i : Nat) + j) % 8) = j := by
    apply Fin.ext
    show (8 * (i : Nat) + j) % 8 % 8 = j
    omega
  rw [e1, e2]

theorem round_small {x : ℝ} {q : Nat} (hq : 0 < q) (h : |x| ≤ 1024) : (round (x / q)).natAbs ≤ 1025 := by
  have hq' : (1 : ℝ) ≤ q := by exact_mod_cast hq
  have h1 : |x / q| ≤ 1024 := by
    rw [abs_div, abs_of_pos (by linarith : (0 : ℝ) < q)]
    exact (div_le_self (abs_nonneg _) hq').trans h
  have h2 := abs_sub_round (x / q)
  have h3 : |((round (x / q) : Int) : ℝ)| ≤ 1025 := by
    rw [abs_le] at *
    constructor <;> linarith
  have h4 : |round (x / q)| ≤ 1025 := by exact_mod_cast h3
  rw [abs_le] at h4
  omega

theorem fdct_le {s : Fin 8 → Fin 8 → ℝ} (hs : ∀ i j, 0 ≤ s i j ∧ s i j ≤ 255) (i j : Fin 8) :
    |idealFdct (fun i j => s i j - 128) i j| ≤ 1024 :=
  abs_le_of_sq_le_sq ((le_energy _ i j).trans (energy_samples hs)) (by norm_num)

theorem quant_pos {quant : List UInt8} (hq : quant.length = 64) (hp : ∀ q ∈ quant, 0 < q.toNat) {k : Nat}
    (hk : k < 64) : 0 < (quant.getD k 0).toNat := by
  rw [List.getD_eq_getElem?_getD, List.getElem?_eq_getElem (by omega)]
  exact hp _ (List.getElem_mem _)

theorem quantise_small {quant : List UInt8} (hq : quant.length = 64) (hp : ∀ q ∈ quant, 0 < q.toNat)
    {s : Fin 8 → Fin 8 → ℝ} (hs : ∀ i j, 0 ≤ s i j ∧ s i j ≤ 255) :
    ∀ x ∈ quantise quant s, x.natAbs ≤ 1025 := by
  intro x hx
  obtain ⟨k, hk, rfl⟩ := List.mem_map.1 hx
  exact round_small (quant_pos hq hp (List.mem_range.1 hk)) (fdct_le hs _ _)

theorem quantise_codable {quant : List UInt8} (hq : quant.length = 64) (hp : ∀ q ∈ quant, 0 < q.toNat)
    {s : Fin 8 → Fin 8 → ℝ} (hs : ∀ i j, 0 ≤ s i j ∧ s i j ≤ 255) : Codable (quantise quant s) := by
  have hsm := quantise_small hq hp hs
  have hlen : (quantise quant s).length = 64 := by simp [quantise]
  refine ⟨hlen, ?_, fun x hx => (hsm x (List.mem_of_mem_tail hx)).trans (by decide)⟩
  unfold dcOfBlock
  cases hc : quantise quant s with
  | nil => rw [hc] at hlen; simp at hlen
  | cons a l =>
    rw [hc] at hsm
    exact (hsm a List.mem_cons_self).trans (by decide)

theorem quantise_quantised {quant : List UInt8} (hq : quant.length = 64) (hp : ∀ q ∈ quant, 0 < q.toNat)
    {s : Fin 8 → Fin 8 → ℝ} (hs : ∀ i j, 0 ≤ s i j ∧ s i j ≤ 255) :
    Quantised (coded (quantise quant s)) (naturalQuant quant) s := by
  intro i j
  obtain ⟨k, hk, hz⟩ := zigzag_surj (8 * i + j) (by omega)
  have hq0 := quant_pos hq hp hk
  have hx := quantise_get (quant := quant) (s := s) hz
  have hr := round_small hq0 (fdct_le hs i j)
  have hqR : quantR (naturalQuant quant) i j = ((quant.getD k 0).toNat : ℝ) := by
    unfold quantR naturalQuant
    rw [List.getD_eq_getElem?_getD, List.getElem?_map, List.getElem?_range (by omega)]
    simp only [Option.map_some, Option.getD_some]
    rw [zigzag_idxOf hz]
  have hcR : coefR (coded (quantise quant s)) (naturalQuant quant) i j =
      (round (idealFdct (fun i j => s i j - 128) i j / (quant.getD k 0).toNat) : ℝ) *
        (quant.getD k 0).toNat := by
    unfold coefR coef
    push_cast
    rw [show (((naturalQuant quant).getD (8 * i + j) 0 : Nat) : ℝ) = quantR (naturalQuant quant) i j from rfl,
      hqR, List.getD_eq_getElem?_getD (l := coded _), coded_get hz hx, Option.getD_some,
      BitVec.toInt_ofInt_eq_self (by decide) (show (-32768 : Int) ≤ _ by omega)
        (show _ < (32768 : Int) by omega)]
  rw [hcR, hqR]
  generalize idealFdct (fun i j => s i j - 128) i j = F at *
  have hq1 : (0 : ℝ) < (quant.getD k 0).toNat := by exact_mod_cast hq0
  generalize ((quant.getD k 0).toNat : ℝ) = Q at *
  have h2 := abs_sub_round (F / Q)
  have e : (round (F / Q) : ℝ) * Q - F = - ((F / Q - round (F / Q)) * Q) := by
    field_simp
    ring
  rw [e, abs_neg, abs_mul, abs_of_pos hq1]
  nlinarith

section
variable {w h restart : Nat} {quant : List UInt8} {img : Nat → Nat → ℝ}

theorem encodeImage_valid (w0 : 0 < w) (h0 : 0 < h) (wLe : w ≤ 65527) (hLe : h ≤ 65527)
    (hr : restart < 65536) (hq : quant.length = 64) (hp : ∀ q ∈ quant, 0 < q.toNat)
    (himg : ∀ y x, 0 ≤ img y x ∧ img y x ≤ 255) : (encodeImage w h restart quant img).Valid := by
  refine encodeGray_valid w0 h0 wLe hLe hr hq ?_ (by simp)
  intro b hb
  obtain ⟨n, -, rfl⟩ := List.mem_map.1 hb
  exact quantise_codable hq hp fun i j => himg _ _

theorem encodeImage_encodes (hq : quant.length = 64) (hp : ∀ q ∈ quant, 0 < q.toNat)
    (himg : ∀ y x, 0 ≤ img y x ∧ img y x ≤ 255) : (encodeImage w h restart quant img).Encodes img := by
  intro by' bx hby hbx
  have e : (encodeImage w h restart quant img).intervals.flatten =
      (List.range ((h + 7) / 8 * ((w + 7) / 8))).map fun n =>
        quantise quant fun i j => img (8 * (n / ((w + 7) / 8)) + i) (8 * (n % ((w + 7) / 8)) + j) :=
    chunks_flatten _ _
  have hby' : by' < (h + 7) / 8 := hby
  have hbx' : bx < (w + 7) / 8 := hbx
  have hn : by' * ((w + 7) / 8) + bx < (h + 7) / 8 * ((w + 7) / 8) := by
    calc by' * ((w + 7) / 8) + bx < by' * ((w + 7) / 8) + (w + 7) / 8 := by omega
      _ = (by' + 1) * ((w + 7) / 8) := by ring
      _ ≤ _ := Nat.mul_le_mul_right _ hby'
  show Quantised (coded ((encodeImage w h restart quant img).intervals.flatten.getD
    (by' * ((w + 7) / 8) + bx) [])) (naturalQuant quant) _
  rw [e, List.getD_eq_getElem?_getD, List.getElem?_map, List.getElem?_range hn]
  simp only [Option.map_some, Option.getD_some]
  rw [show (by' * ((w + 7) / 8) + bx) / ((w + 7) / 8) = by' by
      rw [Nat.mul_comm, Nat.mul_add_div (by omega), Nat.div_eq_of_lt hbx', Nat.add_zero],
    show (by' * ((w + 7) / 8) + bx) % ((w + 7) / 8) = bx by
      rw [Nat.mul_comm, Nat.mul_add_mod, Nat.mod_eq_of_lt hbx']]
  exact quantise_quantised hq hp fun i j => himg _ _

end

/-- **C57 for all images.** Every grayscale image of samples between 0 and 255, coded with any
quantisation table without zeros and any restart interval, comes back up to `1.13 + 1.0005 Q` with the
AVX2 transform, whatever the other options, if its width is not one of those of C53. (For the scalar
transform see `c57_gray_partial` and `c57_false`.) -/
theorem c57_image_partial {w h restart : Nat} {quant : List UInt8} {img : Nat → Nat → ℝ}
    (w0 : 0 < w) (h0 : 0 < h) (wLe : w ≤ 65527) (hLe : h ≤ 65527)
    (hr : restart < 65536) (hq : quant.length = 64) (hp : ∀ q ∈ quant, 0 < q.toNat)
    (himg : ∀ y x, 0 ≤ img y x ∧ img y x ≤ 255) (cpu : Cpu) (o : Options)
    (hw : w ≤ o.getMaxWidth) (hh : h ≤ o.getMaxHeight) (hwide : 64 * ((w + 7) / 8) < 9 * w)
    (havx : chooseIdct cpu o.getUseUnsafe = .avx2) :
    ∃ bytes, ((Decoder.newWithOptions cpu o).decodeBuffer
        (encodeImage w h restart quant img).bytes).1 = .ok bytes ∧
      bytes.length = h * w ∧
      ∀ y x, y < h → x < w → ∃ b, bytes[y * w + x]? = some b ∧
        |(b.toNat : ℝ) - img y x| ≤ 113 / 100 + 2049 / 2048 * quantNorm (naturalQuant quant) :=
  c57_gray_partial (encodeImage_valid w0 h0 wLe hLe hr hq hp himg) cpu o hw hh hwide himg
    (encodeImage_encodes hq hp himg) (fun e => by rw [havx] at e; cases e)

/-- A gradient of 100 x 50 samples, with the quantisers 1 to 64 and a restart interval of 7 blocks. -/
example : ∃ bytes, ((Decoder.new ⟨true, true⟩).decodeBuffer (encodeImage 100 50 7
      ((List.range 64).map fun k => UInt8.ofNat (k + 1)) fun y x => ((2 * x + y) % 256 : Nat)).bytes).1 =
      .ok bytes ∧ bytes.length = 50 * 100 ∧
      ∀ y x, y < 50 → x < 100 → ∃ b, bytes[y * 100 + x]? = some b ∧
        |(b.toNat : ℝ) - ((2 * x + y) % 256 : Nat)| ≤ 113 / 100 + 2049 / 2048 * quantNorm (naturalQuant
          ((List.range 64).map fun k => UInt8.ofNat (k + 1))) :=
  c57_image_partial (by decide) (by decide) (by decide) (by decide) (by decide) (by simp)
    (by decide) (fun y x => ⟨by positivity, by
      have : (2 * x + y) % 256 ≤ 255 := by omega
      exact_mod_cast this⟩) _ _ (by decide) (by decide) (by decide) rfl

end Zune
