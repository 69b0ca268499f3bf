import Verif.Props.NoPanic
import Verif.Lemmas.GrayFactors
/-!
# C66: the sampling factors of a single component do not matter
-/

namespace Zune
open M (wp wp_bind wp_mono)
open Spec

/-- **C66** fails for progressive files: whenever the single component of a progressive frame has
sampling factors other than 1x1 and decoding succeeds, the image is black, whatever the bytes of
the scans are (`mcu_prog.rs:165-166, 188-192` take the size of a row of blocks from the factors). -/
theorem c66_black_partial (cpu : Cpu) (o : Options) {A B : List Segment} (hA : ∀ s ∈ A, Segment.Plain s)
    (hB : ∀ s ∈ B, Segment.Plain s) {w h : Nat} {c : CompSpec} {rest : List UInt8}
    (fits : FrameFits w h [c]) (hid : c.id = 1) (hw : w ≤ 65527) (hh : h ≤ 65527)
    (hf : ¬ (c.h = 1 ∧ c.v = 1)) (low : h + 15 < 16 * w) {out : List UInt8}
    (hok : ((Decoder.newWithOptions cpu o).decodeBuffer (0xFF :: 0xD8 ::
      ((A ++ ⟨0xC2, framePayload w h [c]⟩ :: B).flatMap Segment.bytes ++ 0xFF :: 0xDA :: rest))).1 =
      .ok out) :
    out = List.replicate (w * h) 0 := by
  rcases file_start cpu o hA hB (Or.inr rfl) fits (by decide) hid (by simp) rfl with
    ⟨e, he, -⟩ | ⟨d, rd, -, -, K, h3, -, hf3, F, -, hl, hp, hin, hopt, hdi⟩
  · rw [he] at hok
    cases hok
  rw [if_pos rfl] at hin hopt
  rw [hdi, if_pos (by rw [hp]; rfl)] at hok
  obtain ⟨c', hc'⟩ : ∃ c', d.components = [c'] := by
    match hd : d.components, hl with
    | [a], _ => exact ⟨a, rfl⟩
  have hout : d.options.getOutColorspace = .grayscale := by rw [hopt]; rfl
  have U : Usual d w h c.h c.v := ⟨F, hw, hh, Or.inr ⟨c', hc', hin, hout⟩⟩
  have W := wp_progressive U K h3 hf3 (by
    rintro (e | e)
    · exact absurd hin e
    · exact absurd e hf) (fun _ => Or.inr low) rd
  rcases hd : decodeProgressive ⟨d, rd⟩ with ⟨r, s⟩
  rw [hd] at hok
  cases hok
  exact M.wp_ok W hd hin hf

theorem factors_ok (cpu : Cpu) (o : Options) {A B : List Segment} (hA : ∀ s ∈ A, Segment.Plain s)
    (hB : ∀ s ∈ B, Segment.Plain s) {w h : Nat} {c c' : CompSpec} {rest : List UInt8}
    (fits : FrameFits w h [c]) (fits' : FrameFits w h [c']) (hid : c.id = 1) (hid' : c'.id = 1)
    (htq : c'.tq = c.tq) (hf : (c.h = 1 ∨ c.h = 2) ∧ (c.v = 1 ∨ c.v = 2))
    (hf' : (c'.h = 1 ∨ c'.h = 2) ∧ (c'.v = 1 ∨ c'.v = 2)) (hw : w ≤ 65527) (hh : h ≤ 65527)
    (hs : o.strictMode = false) (scan : NoFrameIn rest) {r : Out (List UInt8)} (hr : ∀ e, r ≠ .err e)
    (hok : ((Decoder.newWithOptions cpu o).decodeBuffer (0xFF :: 0xD8 ::
      ((A ++ ⟨0xC0, framePayload w h [c]⟩ :: B).flatMap Segment.bytes ++ 0xFF :: 0xDA :: rest))).1 =
      r) :
    ((Decoder.newWithOptions cpu o).decodeBuffer (0xFF :: 0xD8 ::
      ((A ++ ⟨0xC0, framePayload w h [c']⟩ :: B).flatMap Segment.bytes ++ 0xFF :: 0xDA :: rest))).1 =
      r := by
  rcases file_start cpu o hA hB (Or.inl rfl) fits (by decide) hid (by simp) rfl with
    ⟨e, he, -⟩ | ⟨d, rd, hd, hrd, K, h3, -, -, F, hck, hl, hp, hin, hopt, hdi⟩
  · rw [he] at hok
    exact absurd hok.symm (hr e)
  rw [if_pos rfl] at hin hopt
  obtain ⟨b, hb⟩ : ∃ c', d.components = [c'] := by
    match hd : d.components, hl with
    | [a], _ => exact ⟨a, rfl⟩
  obtain ⟨g, hg, hd'⟩ := headers_shape cpu o hA hB fits fits' hid hid' htq hf'.1 hf'.2 hd
  have hcomp : (g.dec d).components = [g.comp b] := by
    show d.components.map g.comp = _
    rw [hb]
    rfl
  rcases file_start cpu o hA hB (Or.inl rfl) fits' (by decide) hid' (by simp) rfl with
    ⟨e, he, hno⟩ | ⟨d', rd', hd2, -, -, -, -, -, F', hck', -, hp', -, -, hdi'⟩
  · exfalso
    refine hno _ _ hd' ?_
    have I := (M.wp_ok (wp_decodeHeaders cpu o _) hd').inv
    have hm := I.maxes.1
    dsimp only at hm
    have e0 : b.componentId = .y := by
      obtain ⟨x, hx, hy⟩ := checkComponentDimensions_luma hck
      rw [hb, List.mem_singleton] at hx
      exact hx ▸ hy
    have e0' : (g.comp b).componentId = .y := by
      obtain ⟨_, _, _, _, _, _, _, _, _, _, rfl⟩ := hg
      exact e0
    unfold Decoder.checkComponentDimensions
    rw [hcomp, List.find?_cons_of_pos (by simpa using e0')]
    dsimp only
    rw [if_neg (by omega), checkDims, if_pos e0']
    rfl
  rw [hd'] at hd2
  cases hd2
  have R : OneComp d b w h c.h c.v := ⟨F, hck, hw, hh, hb, hin, by rw [hopt]; rfl, by rw [hopt]; exact hs,
    hf.1, hf.2⟩
  have R' : OneComp (g.dec d) (g.comp b) w h c'.h c'.v := ⟨F', hck', hw, hh, hcomp, hin,
    by show d.options.setOutColorspace _ = d.options; rw [hopt]; rfl,
    by show d.options.getStrictMode = _; rw [hopt]; exact hs, hf'.1, hf'.2⟩
  rw [hdi, if_neg (by rw [hp]; decide)] at hok
  rw [hdi', if_neg (by rw [hp']; decide), ← hok]
  exact baseline_factors R hg R' K h3 (noSof_of (noFrameIn_suffix scan hrd))

/-- **C66** for baseline files without strict mode: two files that differ in nothing but the
sampling factors of their single component, which are 1 or 2, give the same image; and neither
decoding panics or diverges unless the other one does. (They may fail with different errors.) -/
theorem c66_partial (cpu : Cpu) (o : Options) {A B : List Segment} (hA : ∀ s ∈ A, Segment.Plain s)
    (hB : ∀ s ∈ B, Segment.Plain s) {w h : Nat} {c c' : CompSpec} {rest : List UInt8}
    (fits : FrameFits w h [c]) (fits' : FrameFits w h [c']) (hid : c.id = 1) (hid' : c'.id = 1)
    (htq : c'.tq = c.tq) (hf : (c.h = 1 ∨ c.h = 2) ∧ (c.v = 1 ∨ c.v = 2))
    (hf' : (c'.h = 1 ∨ c'.h = 2) ∧ (c'.v = 1 ∨ c'.v = 2)) (hw : w ≤ 65527) (hh : h ≤ 65527)
    (hs : o.strictMode = false) (scan : NoFrameIn rest) {r : Out (List UInt8)} (hr : ∀ e, r ≠ .err e) :
    ((Decoder.newWithOptions cpu o).decodeBuffer (0xFF :: 0xD8 ::
      ((A ++ ⟨0xC0, framePayload w h [c]⟩ :: B).flatMap Segment.bytes ++ 0xFF :: 0xDA :: rest))).1 =
      r ↔
    ((Decoder.newWithOptions cpu o).decodeBuffer (0xFF :: 0xD8 ::
      ((A ++ ⟨0xC0, framePayload w h [c']⟩ :: B).flatMap Segment.bytes ++ 0xFF :: 0xDA :: rest))).1 =
      r :=
  ⟨factors_ok cpu o hA hB fits fits' hid hid' htq hf hf' hw hh hs scan hr,
    factors_ok cpu o hA hB fits' fits hid' hid htq.symm hf' hf hw hh hs scan hr⟩

/-! ### A file and its variants with other sampling factors -/

/-- A grayscale file of 16x16 samples. `m` is the frame marker, `f` the byte with the sampling
factors, and `se` the end of the band. -/
def factorFile (m f se : UInt8) (body : List UInt8) : List UInt8 :=
  [0xFF, 0xD8] ++
  [0xFF, 0xDB, 0x00, 0x43, 0x00] ++ List.replicate 64 1 ++
  [0xFF, m, 0x00, 0x0B, 8, 0, 16, 0, 16, 1, 1, f, 0] ++
  ([0xFF, 0xC4, 0x00, 0x15, 0x00, 1, 1] ++ List.replicate 14 0 ++ [0, 7]) ++
  ([0xFF, 0xC4, 0x00, 0x14, 0x10, 1] ++ List.replicate 15 0 ++ [0]) ++
  [0xFF, 0xDA, 0x00, 0x08, 1, 1, 0x00, 0, se, 0] ++ body ++ [0xFF, 0xD9]

/-- The image of that file: two rows of blocks. -/
def factorImage : List UInt8 :=
  List.replicate 128 136 ++ List.replicate 128 128

/-- **C66** fails: the same progressive file with other factors gives another image. -/
theorem c66_false :
    ((Decoder.new ⟨false, false⟩).decodeBuffer (factorFile 0xC2 0x11 0 [0xA0, 0x27, 0xE0])).1 =
      .ok factorImage ∧
    ((Decoder.new ⟨false, false⟩).decodeBuffer (factorFile 0xC2 0x22 0 [0xA0, 0x27, 0xE0])).1 =
      .ok (List.replicate 256 0) := by
  decide +kernel

/-- The baseline file does not depend on them. -/
example :
    ((Decoder.new ⟨false, false⟩).decodeBuffer (factorFile 0xC0 0x11 63 [0xA0, 0x09, 0xF8])).1 =
      .ok factorImage ∧
    ((Decoder.new ⟨false, false⟩).decodeBuffer (factorFile 0xC0 0x22 63 [0xA0, 0x09, 0xF8])).1 =
      .ok factorImage := by
  decide +kernel

/-- The segments of that file before and after the frame header, and the bytes after the marker of
the scan. -/
def factorA : List Segment := [⟨0xDB, 0 :: List.replicate 64 1⟩]
def factorB : List Segment :=
  [⟨0xC4, [0x00, 1, 1] ++ List.replicate 14 0 ++ [0, 7]⟩, ⟨0xC4, [0x10, 1] ++ List.replicate 15 0 ++ [0]⟩]
def factorRest : List UInt8 := [0, 8, 1, 1, 0, 0, 63, 0, 0xA0, 0x09, 0xF8, 0xFF, 0xD9]

/-- Which also follows from the theorem. -/
example (cpu : Cpu) {r : Out (List UInt8)} (hr : ∀ e, r ≠ .err e) :
    ((Decoder.newWithOptions cpu {}).decodeBuffer
      (factorFile 0xC0 0x11 63 [0xA0, 0x09, 0xF8])).1 = r ↔
    ((Decoder.newWithOptions cpu {}).decodeBuffer
      (factorFile 0xC0 0x21 63 [0xA0, 0x09, 0xF8])).1 = r := by
  have e : ∀ f : Nat, f = 1 ∨ f = 2 → factorFile 0xC0 (UInt8.ofNat (16 * f + 1)) 63 [0xA0, 0x09, 0xF8] =
      0xFF :: 0xD8 :: ((factorA ++ ⟨0xC0, framePayload 16 16 [⟨1, f, 1, 0⟩]⟩ :: factorB).flatMap
        Segment.bytes ++ 0xFF :: 0xDA :: factorRest) := by
    rintro f (rfl | rfl) <;> decide +kernel
  have e1 := e 1 (Or.inl rfl)
  have e2 := e 2 (Or.inr rfl)
  rw [show UInt8.ofNat (16 * 1 + 1) = 0x11 from rfl] at e1
  rw [show UInt8.ofNat (16 * 2 + 1) = 0x21 from rfl] at e2
  rw [e1, e2]
  refine c66_partial cpu {} (A := factorA) (B := factorB) (c := ⟨1, 1, 1, 0⟩) (c' := ⟨1, 2, 1, 0⟩)
    (rest := factorRest) (fun s hs => ?_) (fun s hs => ?_)
    ⟨by decide, by decide, by decide, by decide⟩ ⟨by decide, by decide, by decide, by decide⟩
    rfl rfl rfl (by decide) (by decide) (by decide) (by decide) rfl (noFrameIn_of (by decide)) hr
  · unfold factorA at hs
    rw [List.mem_singleton] at hs
    subst hs
    exact ⟨⟨by decide, by decide, by decide⟩, fun n h => (by cases h)⟩
  · unfold factorB at hs
    simp only [List.mem_cons, List.not_mem_nil, or_false] at hs
    rcases hs with rfl | rfl
    · exact ⟨⟨by decide, by decide, by decide⟩, fun n h => (by cases h)⟩
    · exact ⟨⟨by decide, by decide, by decide⟩, fun n h => (by cases h)⟩

end Zune
