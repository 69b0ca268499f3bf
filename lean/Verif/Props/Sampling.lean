import Verif.Props.GrayFactors
/-!
# C70: only the four usual samplings are decoded
-/

namespace Zune
open M (wp wp_bind wp_mono)
open Spec

/-- Sampling factors that were once seen stay. -/
def FactorsAtLeast (a b : Nat) (d : Decoder) : Prop := d.specEnd ≤ 63 ∧ a ≤ d.hMax ∧ b ≤ d.vMax

theorem FactorsAtLeast.stable (a b : Nat) : Stable (FactorsAtLeast a b) where
  spec h := h.1
  todo _ h := h
  preds _ h := h
  effect {m s s'} h e := by
    have sof : ∀ {k d rd rd' x y h1 h2 w1 w2 n cs cs'}, FactorsAtLeast a b d →
        SofOk k d rd s'.dec rd' x y h1 h2 w1 w2 n cs cs' → FactorsAtLeast a b s'.dec := by
      intro k d rd rd' x y h1 h2 w1 w2 n cs cs' hd G
      rw [G.dec]
      exact ⟨hd.1, Nat.le_trans hd.2.1 (le_maxH _ _), Nat.le_trans hd.2.2 (le_maxV _ _)⟩
    have tab : TablesOnly s.dec s'.dec → FactorsAtLeast a b s'.dec := by
      intro t
      rw [t.dec]
      exact h
    unfold Effect at e
    split at e
    · obtain ⟨x, y, h1, h2, w1, w2, n, cs, cs', G⟩ := e
      exact sof h G
    · obtain ⟨x, y, h1, h2, w1, w2, n, cs, cs', G⟩ := e
      exact sof (d := { s.dec with isProgressive := true }) h G
    · obtain ⟨x, y, n, ss, se, a', ps, S⟩ := e
      rw [S.dec]
      refine ⟨?_, h.2⟩
      dsimp only
      rw [UInt8.toNat_and]
      exact Nat.and_le_right
    · exact tab e

theorem setUpsampling_factors {d d' : Decoder} (h : Decoder.setUpsampling d = (.ok (), d')) :
    d.hMax ≤ 2 ∧ d.vMax ≤ 2 := by
  unfold Decoder.setUpsampling at h
  dsimp only at h
  split at h
  · omega
  split at h
  · omega
  split at h
  · omega
  split at h
  · omega
  · cases h

theorem liftDec_ok {d : Decoder} {rd : List UInt8} {u : Unit} {h' : H}
    (h : liftDec Decoder.setUpsampling ⟨d, rd⟩ = (.ok u, h')) :
    Decoder.setUpsampling d = (.ok (), h'.dec) := by
  unfold liftDec at h
  rcases e : Decoder.setUpsampling d with ⟨r, d'⟩
  rw [e] at h
  cases h
  rfl

/-- What a decoder decodes has factors up to two. -/
theorem decoded_factors {d : Decoder} {rd : List UInt8} {out : List UInt8} {a b : Nat}
    (hf : FactorsAtLeast a b d) (hi : d.interleaved = false → a ≤ 2 ∧ b ≤ 2)
    (hok : ((if d.isProgressive then decodeProgressive else decodeBaseline) ⟨d, rd⟩).1 = .ok out) :
    d.checkComponentDimensions = .ok () ∧ a ≤ 2 ∧ b ≤ 2 := by
  split at hok
  · rcases hp : decodeProgressive ⟨d, rd⟩ with ⟨r, h'⟩
    rw [hp] at hok
    obtain rfl : r = .ok out := hok
    unfold decodeProgressive at hp
    rw [M.bind_ok (getDec_apply _ _)] at hp
    obtain ⟨u, h1, e1, hp⟩ := M.bind_ok_inv hp
    have hc : d.checkComponentDimensions = .ok () ∧ h1 = ⟨d, rd⟩ := by
      unfold M.ofOut at e1
      cases hd : d.checkComponentDimensions <;> rw [hd] at e1 <;> cases e1
      exact ⟨rfl, rfl⟩
    obtain ⟨hc, rfl⟩ := hc
    refine ⟨hc, ?_⟩
    obtain ⟨mb, h2, e2, hp⟩ := M.bind_ok_inv hp
    have : h2 = ⟨d, rd⟩ := by
      unfold M.ofOut at e2
      cases hd : progAlloc d <;> rw [hd] at e2 <;> cases e2
      rfl
    subst this
    obtain ⟨bufs, h3, e3, hp⟩ := M.bind_ok_inv hp
    have F3 := M.wp_ok (wpT_runScans (FactorsAtLeast.stable a b) _ (h := ⟨d, rd⟩) hf) e3
    unfold finishProgressive finishSetup at hp
    obtain ⟨mw, h4, e4, -⟩ := M.bind_ok_inv hp
    obtain ⟨u', h5, e5, -⟩ := M.bind_ok_inv e4
    have := setUpsampling_factors (liftDec_ok (d := h3.dec) (rd := h3.rd) e5)
    exact ⟨Nat.le_trans F3.2.1 this.1, Nat.le_trans F3.2.2 this.2⟩
  · unfold decodeBaseline at hok
    rcases hp : baselineSetup ⟨d, rd⟩ with ⟨_ | e | e | _, h'⟩ <;> rw [hp] at hok
    · unfold baselineSetup at hp
      rw [M.bind_ok (getDec_apply _ _)] at hp
      obtain ⟨u, h1, e1, hp⟩ := M.bind_ok_inv hp
      have hc : d.checkComponentDimensions = .ok () ∧ h1 = ⟨d, rd⟩ := by
        unfold M.ofOut at e1
        cases hd : d.checkComponentDimensions <;> rw [hd] at e1 <;> cases e1
        exact ⟨rfl, rfl⟩
      obtain ⟨hc, rfl⟩ := hc
      refine ⟨hc, ?_⟩
      obtain ⟨mb, h2, e2, hp⟩ := M.bind_ok_inv hp
      have : h2 = ⟨d, rd⟩ := by
        unfold M.ofOut at e2
        cases hd : d.checkTables <;> rw [hd] at e2 <;> cases e2
        rfl
      subst this
      obtain ⟨m, h3, e3, -⟩ := M.bind_ok_inv hp
      cases hin : d.interleaved with
      | false => exact hi hin
      | true =>
        unfold mcuCounts at e3
        rw [M.bind_ok (getDec_apply _ _), if_pos hin] at e3
        obtain ⟨u', h5, e5, -⟩ := M.bind_ok_inv e3
        have := setUpsampling_factors (liftDec_ok e5)
        exact ⟨Nat.le_trans hf.2.1 this.1, Nat.le_trans hf.2.2 this.2⟩
    · cases hok
    · cases hok
    · cases hok

/-- **C70.** When a file with one frame header, whose first component and no other is luma, is
decoded to an image, then the sampling factors in its frame header are those of 4:4:4, 4:2:2, 4:4:0
or 4:2:0: the luma factors are 1 or 2, and those of the other components 1. This holds for baseline
and progressive files, any number of components, any other segments and any bytes of scans. -/
theorem c70_samplings (cpu : Cpu) (o : Options) {A B : List Segment} (hA : ∀ s ∈ A, Segment.Plain s)
    (hB : ∀ s ∈ B, Segment.Plain s) {m : UInt8} (hm : m = 0xC0 ∨ m = 0xC2) {w h : Nat}
    {c : CompSpec} {cs : List CompSpec} (fits : FrameFits w h (c :: cs)) (hid : c.id = 1)
    (hids : ∀ x ∈ cs, x.id ≠ 1) {rest out : List UInt8}
    (hok : ((Decoder.newWithOptions cpu o).decodeBuffer (0xFF :: 0xD8 ::
      ((A ++ ⟨m, framePayload w h (c :: cs)⟩ :: B).flatMap Segment.bytes ++ 0xFF :: 0xDA :: rest))).1 =
      .ok out) :
    (c.h = 1 ∨ c.h = 2) ∧ (c.v = 1 ∨ c.v = 2) ∧ ∀ x ∈ cs, x.h = 1 ∧ x.v = 1 := by
  rcases hd : decodeInternal ⟨Decoder.newWithOptions cpu o, 0xFF :: 0xD8 ::
      ((A ++ ⟨m, framePayload w h (c :: cs)⟩ :: B).flatMap Segment.bytes ++ 0xFF :: 0xDA :: rest)⟩
    with ⟨r, s⟩
  unfold Decoder.decodeBuffer at hok
  rw [hd] at hok
  obtain rfl : r = .ok out := hok
  unfold decodeInternal at hd
  obtain ⟨u, ⟨d, rd⟩, e1, hd⟩ := M.bind_ok_inv hd
  rw [M.bind_ok (getDec_apply _ _)] at hd
  have I := (M.wp_ok (wp_decodeHeaders cpu o _) e1).inv
  have hd1 : ((if d.isProgressive then decodeProgressive else decodeBaseline) ⟨d, rd⟩).1 =
      .ok out := by
    rw [hd]
  have hcheck := (decoded_factors (a := 0) (b := 0) ⟨I.spec.2, Nat.zero_le _, Nat.zero_le _⟩
    (fun _ => ⟨by omega, by omega⟩) hd1).1
  have hr : (Decoder.newWithOptions cpu o).readHeaders (0xFF :: 0xD8 ::
      ((A ++ ⟨m, framePayload w h (c :: cs)⟩ :: B).flatMap Segment.bytes ++ 0xFF :: 0xDA :: rest)) =
      (.ok (), d) := by
    unfold Decoder.readHeaders
    rw [e1]
  obtain ⟨F, hcs, -⟩ := file_decoder cpu o hA hB hm fits hid hids hr hcheck
  have hp := F.fpos
  have hmax := (decoded_factors (a := c.h) (b := c.v)
    ⟨I.spec.2, Nat.le_of_eq F.hMax.symm, Nat.le_of_eq F.vMax.symm⟩ (fun hi => by
      have := F.inter
      rw [hi] at this
      simp at this
      omega) hd1).2
  exact ⟨by omega, by omega, hcs⟩

/-- A file to which the theorem applies, and the same with factor 4, which is refused. -/
example : factorFile 0xC0 0x22 63 [0xA0, 0x09, 0xF8] =
      0xFF :: 0xD8 :: ((factorA ++ ⟨0xC0, framePayload 16 16 [⟨1, 2, 2, 0⟩]⟩ :: factorB).flatMap
        Segment.bytes ++ 0xFF :: 0xDA :: factorRest) ∧
    FrameFits 16 16 [⟨1, 2, 2, 0⟩] ∧
    ((Decoder.new ⟨false, false⟩).decodeBuffer (factorFile 0xC0 0x22 63 [0xA0, 0x09, 0xF8])).1 =
      .ok factorImage ∧
    ((Decoder.new ⟨false, false⟩).decodeBuffer (factorFile 0xC0 0x41 63 [0xA0, 0x09, 0xF8])).1 =
      .err .format ∧
    ((Decoder.new ⟨false, false⟩).decodeBuffer (factorFile 0xC2 0x14 0 [0xA0, 0x27, 0xE0])).1 =
      .err .format := by
  refine ⟨by decide +kernel, ⟨by decide, by decide, by decide, by decide⟩, ?_, ?_, ?_⟩ <;>
    decide +kernel

end Zune
