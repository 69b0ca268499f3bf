import Verif.Lemmas.NoPanicFile
import Mathlib.Data.List.Infix
/-!
# C65: decoding does not panic
-/

namespace Zune
open M (wp wp_bind wp_mono)
open Spec

namespace Spec

/-- Two bytes that stand for a frame header do not occur in `l`. -/
def NoFrameIn (l : List UInt8) : Prop :=
  ∀ a b : List UInt8, l ≠ a ++ 0xFF :: 0xC0 :: b ∧ l ≠ a ++ 0xFF :: 0xC2 :: b

/-- What is asked of a frame and of the bytes after the scan marker. The frame has one or three
components of which the first, and no other, is luma. The remaining conditions leave out the
images on which the code was shown to panic: narrow images with grayscale output (C37, C53), some
widths with the SSE converter (C38), vertical subsampling of images much wider than high (C45),
sampling factors in very high progressive grayscale images (C66), and frame headers inside a
baseline scan. -/
structure Tame (cpu : Cpu) (o : Options) (m : UInt8) (w h : Nat) (cs : List CompSpec)
    (rest : List UInt8) : Prop where
  fits : FrameFits w h cs
  wLe : w ≤ 65527
  hLe : h ≤ 65527
  comps : (∃ c, cs = [c] ∧ c.id = 1 ∧
      (m = 0xC2 ∧ ¬ (c.h = 1 ∧ c.v = 1) ∧ h + 15 < 16 * w ∨
       (m = 0xC2 → c.h = 1 ∧ c.v = 1) ∧ 64 * ((w + 7) / 8) < 9 * w)) ∨
    (∃ c c1 c2, cs = [c, c1, c2] ∧ c.id = 1 ∧ c1.id ≠ 1 ∧ c2.id ≠ 1 ∧
      Converts (Decoder.newWithOptions cpu o).colorFn o.getOutColorspace w c.h c.v ∧
      (m = 0xC0 → c.v = 1 ∨ 7 * w ≤ 136 * h + 64))
  scan : m = 0xC0 → NoFrameIn rest

end Spec

theorem fromU8_sof0 {c : UInt8} (h : Marker.fromU8 c = some (.sof 0)) : c = 0xC0 := by
  have : ∀ n : Fin 256, Marker.fromU8 (UInt8.ofNat n) = some (.sof 0) → UInt8.ofNat n = 0xC0 := by
    decide +kernel
  have h' := this ⟨c.toNat, c.toNat_lt⟩
  simpa using h' (by simpa using h)

theorem fromU8_sof2 {c : UInt8} (h : Marker.fromU8 c = some (.sof 2)) : c = 0xC2 := by
  have : ∀ n : Fin 256, Marker.fromU8 (UInt8.ofNat n) = some (.sof 2) → UInt8.ofNat n = 0xC2 := by
    decide +kernel
  have h' := this ⟨c.toNat, c.toNat_lt⟩
  simpa using h' (by simpa using h)

theorem noSof_of {l : List UInt8} (h : NoFrameIn l) : NoSof l := by
  constructor
  · rintro ⟨a, c, b, e, hc⟩
    rw [fromU8_sof0 hc] at e
    exact (h a b).1 e
  · rintro ⟨a, c, b, e, hc⟩
    rw [fromU8_sof2 hc] at e
    exact (h a b).2 e

theorem noFrameIn_suffix {l l' : List UInt8} (h : NoFrameIn l) (hs : l' <:+ l) : NoFrameIn l' := by
  obtain ⟨t, rfl⟩ := hs
  intro a b
  constructor
  · rintro rfl
    exact (h (t ++ a) b).1 (by simp)
  · rintro rfl
    exact (h (t ++ a) b).2 (by simp)

theorem header_segments {A B : List Segment} (hA : ∀ s ∈ A, Segment.Plain s)
    (hB : ∀ s ∈ B, Segment.Plain s) {m : UInt8} (hm : m = 0xC0 ∨ m = 0xC2) {w h : Nat}
    {c : CompSpec} {cs : List CompSpec} (hlen : cs.length ≤ 2) :
    ∀ s ∈ A ++ (⟨m, framePayload w h (c :: cs)⟩ : Segment) :: B, s.Header ∧ SmallSeg s := by
  have hplen : (framePayload w h (c :: cs)).length = 6 + 3 * (c :: cs).length := by
    have : ∀ l : List CompSpec, (l.flatMap CompSpec.bytes).length = 3 * l.length := by
      intro l
      induction l with
      | nil => rfl
      | cons c l ih =>
        rw [List.flatMap_cons, List.length_append, ih, List.length_cons]
        show 3 + _ = _
        omega
    unfold framePayload
    simp only [List.length_cons, List.length_append, twoBytes, List.length_nil, this]
    omega
  have plain : ∀ s, Segment.Plain s → s.Header ∧ SmallSeg s :=
    fun s hs => ⟨hs.header, fun k hk => absurd hk (hs.frame k)⟩
  intro s hs
  simp only [List.mem_append, List.mem_cons] at hs
  rcases hs with hs | rfl | hs
  · exact plain s (hA s hs)
  · refine ⟨⟨by dsimp only; rw [hplen, List.length_cons]; omega, ?_, ?_⟩, ?_⟩
    · rcases hm with rfl | rfl <;> dsimp only <;> decide
    · rcases hm with rfl | rfl <;> dsimp only <;> decide
    · intro k hk n hn
      have e : (framePayload w h (c :: cs))[5]? = some (UInt8.ofNat (c :: cs).length) := rfl
      rw [e] at hn
      cases hn
      rw [UInt8.toNat_ofNat', List.length_cons]
      omega
  · exact plain s (hB s hs)

/-- Decoding a file whose headers are complete segments fails or comes to a scan. -/
theorem file_start (cpu : Cpu) (o : Options) {A B : List Segment} (hA : ∀ s ∈ A, Segment.Plain s)
    (hB : ∀ s ∈ B, Segment.Plain s) {m : UInt8} (hm : m = 0xC0 ∨ m = 0xC2) {w h : Nat}
    {c : CompSpec} {cs : List CompSpec} {rest : List UInt8} (fits : FrameFits w h (c :: cs))
    (hlen : cs.length ≤ 2) (hid : c.id = 1) (hids : ∀ x ∈ cs, x.id ≠ 1) {file : List UInt8}
    (hfile : 0xFF :: 0xD8 :: ((A ++ ⟨m, framePayload w h (c :: cs)⟩ :: B).flatMap Segment.bytes ++
      0xFF :: 0xDA :: rest) = file) :
    (∃ e, ((Decoder.newWithOptions cpu o).decodeBuffer file).1 = .err e ∧
      ∀ d rd, decodeHeaders ⟨Decoder.newWithOptions cpu o, file⟩ = (.ok (), ⟨d, rd⟩) →
        d.checkComponentDimensions ≠ .ok ()) ∨
    ∃ d rd, decodeHeaders ⟨Decoder.newWithOptions cpu o, file⟩ = (.ok (), ⟨d, rd⟩) ∧
      rd <:+ rest ∧ Steady d d ∧ Three d ∧
      d.colorFn = (Decoder.newWithOptions cpu o).colorFn ∧ d.colorFn.Three ∧
      Frame d w h c.h c.v ∧ d.checkComponentDimensions = .ok () ∧ d.components.length = cs.length + 1 ∧
      d.isProgressive = decide (m = 0xC2) ∧
      d.inputColorspace = (if cs = [] then .grayscale else .ycbcr) ∧
      d.options = (if cs = [] then o.setOutColorspace .grayscale else o) ∧
      ((Decoder.newWithOptions cpu o).decodeBuffer file).1 =
        ((if d.isProgressive then decodeProgressive else decodeBaseline) ⟨d, rd⟩).1 := by
  have hsegs := header_segments hA hB hm (w := w) (h := h) (c := c) hlen
  have hhead := decodeHeaders_returns cpu o hsegs rest
  rw [hfile] at hhead
  have hdb : ((Decoder.newWithOptions cpu o).decodeBuffer file).1 =
    (decodeInternal ⟨Decoder.newWithOptions cpu o, file⟩).1 := rfl
  rcases hok : decodeHeaders ⟨Decoder.newWithOptions cpu o, file⟩ with ⟨_ | er | _ | _, ⟨d, rd⟩⟩
  rotate_left
  · left
    refine ⟨er, ?_, fun d rd h => (by cases h)⟩
    rw [hdb]
    unfold decodeInternal
    rw [M.bind_apply, hok]
  · rw [hok] at hhead
    rcases hhead with ⟨_, h⟩ | ⟨_, h⟩ <;> cases h
  · rw [hok] at hhead
    rcases hhead with ⟨_, h⟩ | ⟨_, h⟩ <;> cases h
  have hdi : ((Decoder.newWithOptions cpu o).decodeBuffer file).1 =
      ((if d.isProgressive then decodeProgressive else decodeBaseline) ⟨d, rd⟩).1 := by
    rw [hdb]
    unfold decodeInternal
    rw [M.bind_ok hok, M.bind_ok (getDec_apply _ _)]
  have HR := M.wp_ok (wp_decodeHeaders cpu o file) hok
  dsimp only at HR
  have hrd : rd <:+ rest := by
    rw [← hfile] at hok
    rw [decodeHeaders_segments fun s hs => (hsegs s hs).1] at hok
    obtain ⟨d3, -, hl⟩ := hok
    obtain ⟨x', y', n', ss, se, a, ps, S⟩ := M.wp_ok (wp_parseSos (pn := True) (dv := False)
      (fun h => absurd trivial h)) (HL.sos_inv hl)
    exact S.suffix.1
  have I := HR.inv
  have hfn : d.colorFn = (Decoder.newWithOptions cpu o).colorFn := I.fixed.2.2
  by_cases hcheck : d.checkComponentDimensions = .ok ()
  swap
  · left
    obtain ⟨er, he⟩ : ∃ er, d.checkComponentDimensions = .err er := by
      rcases checkComponentDimensions_returns I.maxes.1 with ⟨⟨⟩, e⟩ | e
      · exact absurd e hcheck
      · exact e
    refine ⟨er, ?_, fun d' rd' h => (by cases h; exact hcheck)⟩
    rw [hdi]
    split
    · unfold decodeProgressive
      rw [M.bind_ok (getDec_apply _ _), he]
      rfl
    · have hb : baselineSetup ⟨d, rd⟩ = (.err er, ⟨d, rd⟩) := by
        unfold baselineSetup
        rw [M.bind_ok (getDec_apply _ _), he]
        rfl
      unfold decodeBaseline
      rw [hb]
  have hr : (Decoder.newWithOptions cpu o).readHeaders (0xFF :: 0xD8 ::
      ((A ++ ⟨m, framePayload w h (c :: cs)⟩ :: B).flatMap Segment.bytes ++ 0xFF :: 0xDA :: rest)) =
      (.ok (), d) := by
    unfold Decoder.readHeaders
    rw [hfile, hok]
  obtain ⟨F, -, hl, hp, hin, hopt⟩ := file_decoder cpu o hA hB hm fits hid hids hr hcheck
  refine Or.inr ⟨d, rd, rfl, hrd, I.steady, ⟨by omega, ?_⟩, hfn, ?_, F, hcheck, hl, hp, hin, hopt, hdi⟩
  · rcases I.frame with ⟨e1, e2⟩ | ⟨-, e, -⟩
    · rw [e1, e2]
      exact Nat.le_refl _
    · rw [e]
  · rw [hfn]
    exact reachable_three (Reachable.new cpu o)

/-- **C65**: when a new decoder is given a file whose headers are complete segments with one frame
header, of one or three components, and the conditions of `Tame` hold, then `decode_buffer` returns
`Ok` or `Err`, for every content of the other segments and every bytes after the scan marker. -/
theorem c65_partial (cpu : Cpu) (o : Options) {A B : List Segment} (hA : ∀ s ∈ A, Segment.Plain s)
    (hB : ∀ s ∈ B, Segment.Plain s) {m : UInt8} (hm : m = 0xC0 ∨ m = 0xC2) {w h : Nat}
    {cs : List CompSpec} {rest : List UInt8} (T : Tame cpu o m w h cs rest) :
    M.Returns ((Decoder.newWithOptions cpu o).decodeBuffer (0xFF :: 0xD8 ::
      ((A ++ ⟨m, framePayload w h cs⟩ :: B).flatMap Segment.bytes ++ 0xFF :: 0xDA :: rest))).1 := by
  have hprog : ∀ {d : Decoder}, d.isProgressive = decide (m = 0xC2) → ¬ d.isProgressive = true →
      m = 0xC0 := by
    intro d h1 h2
    rcases hm with rfl | rfl
    · rfl
    · rw [h1] at h2
      exact absurd rfl h2
  rcases T.comps with ⟨c, rfl, hid, hkind⟩ | ⟨c, c1, c2, rfl, hid, hid1, hid2, hconv, hroom⟩
  · rcases file_start cpu o hA hB hm T.fits (by decide) hid (by simp) rfl with
      ⟨e, he, -⟩ | ⟨d, rd, -, hrd, K, h3, hfn, hf3, F, -, hl, hp, hin, hopt, hdi⟩
    · exact Or.inr ⟨e, he⟩
    rw [hdi]
    rw [if_pos rfl] at hin hopt
    obtain ⟨c', hc'⟩ : ∃ c', d.components = [c'] := by
      match hd : d.components, hl with
      | [a], _ => exact ⟨a, rfl⟩
    have hout : d.options.getOutColorspace = .grayscale := by rw [hopt]; rfl
    have U : Usual d w h c.h c.v := ⟨F, T.wLe, T.hLe, Or.inr ⟨c', hc', hin, hout⟩⟩
    rcases hkind with ⟨hm2, hn11, low⟩ | ⟨hpf, hfit⟩
    · rw [if_pos (by rw [hp]; exact decide_eq_true hm2)]
      refine progressive_returns U K h3 hf3 ?_ (fun _ => Or.inr low) rd
      rintro (e | e)
      · exact absurd hin e
      · exact absurd e hn11
    have hconv : Converts d.colorFn d.options.getOutColorspace w 1 1 := by
      have hmc : mcuCols w 1 = (w + 7) / 8 := rfl
      refine ⟨fun _ => ?_, fun e => ?_⟩
      · rw [hmc]
        omega
      · rw [hout] at e
        cases e
    have hfac : ∀ f, factor d f = 1 := by
      intro f
      unfold factor
      rw [if_pos hin]
    split
    · rename_i hpr
      rw [hp] at hpr
      obtain ⟨e1, e2⟩ := hpf (of_decide_eq_true hpr)
      rw [e1, e2] at U
      exact progressive_returns U K h3 hf3 (fun _ => hconv) (fun _ => Or.inl ⟨rfl, rfl⟩) rd
    · rename_i hpr
      exact baseline_returns U K h3 hf3 (by rw [hfac, hfac]; exact hconv)
        (Or.inl (hfac _)) (noSof_of (noFrameIn_suffix (T.scan (hprog hp hpr)) hrd))
  · rcases file_start cpu o hA hB hm T.fits (Nat.le_refl _) hid (by
      intro x hx
      simp only [List.mem_cons, List.not_mem_nil, or_false] at hx
      rcases hx with rfl | rfl
      · exact hid1
      · exact hid2) rfl with
      ⟨e, he, -⟩ | ⟨d, rd, -, hrd, K, h3, hfn, hf3, F, -, hl, hp, hin, hopt, hdi⟩
    · exact Or.inr ⟨e, he⟩
    rw [hdi]
    rw [if_neg (by simp)] at hin hopt
    obtain ⟨x0, x1, x2, hc'⟩ : ∃ x0 x1 x2, d.components = [x0, x1, x2] := by
      match hd : d.components, hl with
      | [a, b, c], _ => exact ⟨a, b, c, rfl⟩
    have U : Usual d w h c.h c.v := ⟨F, T.wLe, T.hLe, Or.inl ⟨x0, x1, x2, hc', hin⟩⟩
    have hfac : ∀ f, factor d f = f := by
      intro f
      unfold factor
      rw [hin, if_neg (by decide)]
    rw [← hfn, ← hopt] at hconv
    split
    · exact progressive_returns U K h3 hf3 (fun _ => hconv) (fun e => by rw [hin] at e; cases e) rd
    · rename_i hpr
      have hm0 := hprog hp hpr
      exact baseline_returns U K h3 hf3 (by rw [hfac, hfac]; exact hconv)
        (by rw [hfac]; exact hroom hm0) (noSof_of (noFrameIn_suffix (T.scan hm0) hrd))

/-! ### Files on which decoding panics -/

theorem noFrameIn_prefix {l l' : List UInt8} (h : NoFrameIn l) (hs : l' <+: l) : NoFrameIn l' := by
  obtain ⟨t, rfl⟩ := hs
  intro a b
  constructor
  · rintro rfl
    exact (h a (b ++ t)).1 (by simp)
  · rintro rfl
    exact (h a (b ++ t)).2 (by simp)

/-- **C65** for files that were cut off anywhere, in the headers or in the scan: every beginning
of a file as in `c65_partial` is decoded or refused. -/
theorem c65_cut_partial (cpu : Cpu) (o : Options) {A B : List Segment}
    (hA : ∀ s ∈ A, Segment.Plain s) (hB : ∀ s ∈ B, Segment.Plain s) {m : UInt8}
    (hm : m = 0xC0 ∨ m = 0xC2) {w h : Nat} {cs : List CompSpec} {rest : List UInt8}
    (T : Tame cpu o m w h cs rest) {p : List UInt8}
    (hp : p <+: 0xFF :: 0xD8 ::
      ((A ++ ⟨m, framePayload w h cs⟩ :: B).flatMap Segment.bytes ++ 0xFF :: 0xDA :: rest)) :
    M.Returns ((Decoder.newWithOptions cpu o).decodeBuffer p).1 := by
  have hdb : ∀ file, ((Decoder.newWithOptions cpu o).decodeBuffer file).1 =
    (decodeInternal ⟨Decoder.newWithOptions cpu o, file⟩).1 := fun _ => rfl
  have bad : ∀ file, (∃ e, (decodeHeaders ⟨Decoder.newWithOptions cpu o, file⟩).1 = .err e) →
      M.Returns ((Decoder.newWithOptions cpu o).decodeBuffer file).1 := by
    rintro file ⟨e, he⟩
    refine Or.inr ⟨e, ?_⟩
    rw [hdb]
    unfold decodeInternal
    rw [M.bind_apply]
    rcases hx : decodeHeaders ⟨Decoder.newWithOptions cpu o, file⟩ with ⟨r, s⟩
    rw [hx] at he
    cases he
    rfl
  obtain ⟨c, cs', rfl, hlen⟩ : ∃ c cs', cs = c :: cs' ∧ cs'.length ≤ 2 := by
    rcases T.comps with ⟨c, rfl, -⟩ | ⟨c, c1, c2, rfl, -⟩
    · exact ⟨c, [], rfl, by decide⟩
    · exact ⟨c, _, rfl, Nat.le_refl _⟩
  match p, hp with
  | [], _ => exact bad _ ⟨_, rfl⟩
  | [a], _ => exact bad _ ⟨_, rfl⟩
  | a :: b :: p, hp =>
    rw [List.cons_prefix_cons, List.cons_prefix_cons] at hp
    obtain ⟨rfl, rfl, hp⟩ := hp
    have hsegs := header_segments hA hB hm (w := w) (h := h) (c := c) hlen
    obtain ⟨segs, hsg⟩ : ∃ segs, A ++ (⟨m, framePayload w h (c :: cs')⟩ : Segment) :: B = segs := ⟨_, rfl⟩
    rw [hsg] at hp hsegs
    have hp' : p <+: (segs.flatMap Segment.bytes ++ [0xFF]) ++ 0xDA :: rest := by simpa using hp
    by_cases hl : p.length ≤ (segs.flatMap Segment.bytes ++ [0xFF]).length
    · exact bad _ (decodeHeaders_cut cpu o hsegs ((List.isPrefix_append_of_length hl).1 hp'))
    · obtain ⟨t, ht⟩ := hp'
      rcases List.append_eq_append_iff.1 ht with ⟨a, e1, e2⟩ | ⟨a, e1, e2⟩
      · exact absurd (by rw [e1, List.length_append]; omega) hl
      · cases a with
        | nil => exact absurd (by rw [e1, List.append_nil]) hl
        | cons x a =>
          rw [List.cons_append, List.cons.injEq] at e2
          obtain ⟨rfl, e2⟩ := e2
          have T' : Tame cpu o m w h (c :: cs') a := ⟨T.fits, T.wLe, T.hLe, T.comps,
            fun h => noFrameIn_prefix (T.scan h) ⟨t, e2.symm⟩⟩
          have := c65_partial cpu o hA hB hm T'
          rw [hsg] at this
          rw [e1]
          simpa using this

/-- A file with a frame of two components. -/
def twoFile : List UInt8 :=
  [0xFF, 0xD8] ++
  [0xFF, 0xDB, 0x00, 0x43, 0x00] ++ List.replicate 64 1 ++
  [0xFF, 0xC0, 0x00, 0x0E, 8, 0, 16, 0, 16, 2, 1, 0x11, 0, 2, 0x11, 0] ++
  ([0xFF, 0xC4, 0x00, 0x14, 0x00, 1] ++ List.replicate 15 0 ++ [0]) ++
  ([0xFF, 0xC4, 0x00, 0x14, 0x10, 1] ++ List.replicate 15 0 ++ [0]) ++
  [0xFF, 0xDA, 0x00, 0x0A, 2, 1, 0x00, 2, 0x00, 0, 63, 0] ++ [0, 0, 0, 0, 0xFF, 0xD9]

/-- **C65** fails for two components: every frame that has not exactly one is taken for a three
component one (`mcu.rs:405`). Four components panic in the headers already (`c06_false`). -/
theorem c65_false : ((Decoder.new ⟨false, false⟩).decodeBuffer twoFile).1 = .panic .index := by
  decide +kernel

/-- A grayscale file with a second frame header inside the scan, of which the sampling factors are
other ones. -/
def reframedFile : List UInt8 :=
  [0xFF, 0xD8] ++
  [0xFF, 0xDB, 0x00, 0x43, 0x00] ++ List.replicate 64 1 ++
  [0xFF, 0xC0, 0x00, 0x0B, 8, 0, 16, 0, 16, 1, 1, 0x11, 0] ++
  [0xFF, 0xDB, 0x00, 0x43, 0x00] ++ List.replicate 64 1 ++
  ([0xFF, 0xC4, 0x00, 0x14, 0x00, 1] ++ List.replicate 15 0 ++ [0]) ++
  ([0xFF, 0xC4, 0x00, 0x14, 0x10, 1] ++ List.replicate 15 0 ++ [0]) ++
  [0xFF, 0xDA, 0x00, 0x08, 1, 1, 0x00, 0, 63, 0] ++
  [0, 0xFF, 0xC0, 0x00, 0x0B, 8, 0, 16, 0, 16, 1, 1, 0x22, 0, 0, 0xFF, 0xD9]

/-- **C65** fails for a frame header inside a scan (`mcu.rs:347` parses any marker it meets). -/
theorem c65_false_frame : ((Decoder.new ⟨false, false⟩).decodeBuffer reframedFile).1 =
    .panic .unwrap := by
  decide +kernel

/-! ### Examples -/

theorem noFrameIn_of {l : List UInt8} (h : ∀ i < l.length, l[i]? = some 0xFF →
    l[i + 1]? ≠ some 0xC0 ∧ l[i + 1]? ≠ some 0xC2) : NoFrameIn l := by
  intro a b
  constructor
  · rintro rfl
    exact (h a.length (by simp) (by simp)).1 (by simp)
  · rintro rfl
    exact (h a.length (by simp) (by simp)).2 (by simp)

/-- A baseline grayscale image, with sampling factors. -/
example : Tame ⟨true, true⟩ {} 0xC0 16 1000 [⟨1, 3, 1, 0⟩]
    [0, 8, 1, 1, 0x00, 0, 63, 0, 5, 0xFF, 0xDA] where
  fits := ⟨by decide, by decide, by decide, by decide⟩
  wLe := by decide
  hLe := by decide
  comps := Or.inl ⟨_, rfl, rfl, Or.inr ⟨fun h => absurd h (by decide), by decide⟩⟩
  scan := fun _ => noFrameIn_of (by decide)

/-- A baseline colour image with 2x2 factors and a scan header with damaged data after it. -/
example : Tame ⟨true, true⟩ {} 0xC0 17 33 [⟨1, 2, 2, 0⟩, ⟨2, 1, 1, 1⟩, ⟨3, 1, 1, 1⟩]
    [0, 12, 3, 1, 0x00, 2, 0x11, 3, 0x11, 0, 63, 0, 0xFF, 0xFF, 0xC4, 7] where
  fits := ⟨by decide, by decide, by decide, by decide⟩
  wLe := by decide
  hLe := by decide
  comps := Or.inr ⟨_, _, _, rfl, rfl, by decide, by decide, by decide +kernel,
    fun _ => Or.inr (by decide)⟩
  scan := fun _ => noFrameIn_of (by decide)

/-- A progressive colour image, with any bytes after the scan marker. -/
example (rest : List UInt8) : Tame ⟨true, true⟩ {} 0xC2 60000 8
    [⟨1, 2, 2, 0⟩, ⟨2, 1, 1, 1⟩, ⟨3, 1, 1, 1⟩] rest where
  fits := ⟨by decide, by decide, by decide, by decide⟩
  wLe := by decide
  hLe := by decide
  comps := Or.inr ⟨_, _, _, rfl, rfl, by decide, by decide, by decide +kernel,
    fun h => absurd h (by decide)⟩
  scan := fun h => absurd h (by decide)

end Zune
