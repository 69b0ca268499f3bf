import Verif.Lemmas.Decode
import Verif.Props.Headers
/-!
# Whole files: termination, limits, length of the output, number of scans

C02 (for `decode_buffer`), C05, C40, C43.
-/

namespace Zune
open M (wp wp_bind wp_mono wp_pure wp_throw wp_idx wp_idx_of wp_okOr wp_ofOut wp_failIf wp_ite_of
  wp_diverge wp_panic wp_unwrap wp_get wp_modify)
open Spec

/-! ### Headers on any decoder -/

theorem wpT_headerStep {I : Decoder → Prop}
    (hI : ∀ {m : Marker} {s s' : H}, I s.dec → Effect m s s' → I s'.dec)
    (last : UInt8) (count : Nat) (m : UInt8) {s : H} (h : I s.dec) :
    wpT (headerStep last count m) (fun o s' => s'.rd.length ≤ s.rd.length ∧ I s'.dec ∧
      (o = none → s'.dec.specEnd ≤ 63)) s := by
  unfold headerStep
  refine wp_ite_of (fun _ => ?_) fun _ => ⟨Nat.le_refl _, h, fun h => nomatch h⟩
  rcases Marker.fromU8 m with _ | mk
  · dsimp only
    rw [wp_bind]
    refine wp_mono wp_skipSegment ?_ (fun _ _ _ => trivial)
    rintro _ s' ⟨h1, -, h2⟩
    exact ⟨by omega, by rw [h1]; exact h, fun h => nomatch h⟩
  · dsimp only
    rw [wp_bind]
    refine wp_mono (wp_parseMarkerInner_raw mk (fun h => absurd trivial h)
      (fun h => absurd trivial h)) ?_ (fun _ _ h => h)
    rintro _ s' ⟨-, h1, h2⟩
    refine wp_ite_of (fun e => ?_) fun _ => ⟨by omega, hI h h2, fun h => nomatch h⟩
    refine ⟨by omega, hI h h2, fun _ => ?_⟩
    subst e
    obtain ⟨x, y, n, ss, se, a, ps, hs⟩ := h2
    rw [hs.dec]
    exact and63_le _

theorem wpT_decodeHeaders {I : Decoder → Prop}
    (hI : ∀ {m : Marker} {s s' : H}, I s.dec → Effect m s s' → I s'.dec) {d : Decoder}
    (buf : List UInt8) (h : I d) :
    wpT decodeHeaders (fun _ s' => I s'.dec ∧ s'.dec.specEnd ≤ 63) ⟨d, buf⟩ := by
  show wp _ _ (do
    let magic ← readU16 .exhausted
    if magic ≠ 0xffd8 then M.throw (.illegalMagic magic.toNat)
    else headerLoop (buf.length + 1) 0 0 : M H Unit) _ _ _
  rw [wp_bind]
  refine wp_readU16 (fun a b r hr => ?_) (fun _ => trivial)
  refine wp_ite_of (fun _ => trivial) fun _ => ?_
  dsimp only at hr
  refine wp_headerLoop (J := fun _ s => I s.dec) (fun _ _ _ _ => trivial)
    (fun _ _ _ => trivial) ?_ _ _ _ _ h ?_
  · intro last count m r s hJ hr
    refine wpT_mono (wpT_headerStep hI last count m (s := ⟨s.dec, r⟩) hJ) ?_
    rintro (_ | o) s' ⟨h1, h2, h3⟩
    · exact ⟨h1, h2, h3 rfl⟩
    · exact ⟨h1, h2⟩
  · rw [hr]; simp; omega

/-! ### C05 -/

theorem stable_spec : Stable fun d => d.specEnd ≤ 63 where
  spec h := h
  effect := by
    intro m s s' h e
    unfold Effect at e
    split at e
    · obtain ⟨x, y, h1, h2, w1, w2, n, cs, cs', e⟩ := e
      rw [e.dec]; exact h
    · obtain ⟨x, y, h1, h2, w1, w2, n, cs, cs', e⟩ := e
      rw [e.dec]; exact h
    · obtain ⟨x, y, n, ss, se, a, ps, e⟩ := e
      rw [e.dec]; exact and63_le _
    · rw [e.dec]; exact h
  todo _ h := h
  preds _ h := h

/-- **C05** for `read_headers`. The model gives the marker loop one round per input byte and one more
(for the failing read at the end of the input); no loop of the header parsers runs out of rounds. -/
theorem c05_headers (d : Decoder) (buf : List UInt8) : (d.readHeaders buf).1 ≠ .diverge := by
  have := wpT_decodeHeaders (I := fun _ => True) (fun _ _ => trivial) buf (d := d) trivial
  unfold Decoder.readHeaders
  unfold wpT wp at this
  intro e
  rcases hr : decodeHeaders ⟨d, buf⟩ with ⟨_ | _ | _ | _, s⟩ <;> rw [hr] at e this
  · cases e
  · cases e
  · cases e
  · exact this

/-- **C05** for `decode_buffer`: on every decoder state and every input, no loop of the scan decoders
(baseline or progressive) runs out of the rounds that the model gives it. -/
theorem c05_decode (d : Decoder) (buf : List UInt8) : (d.decodeBuffer buf).1 ≠ .diverge := by
  have key : wpT decodeInternal (fun _ _ => True) ⟨d, buf⟩ := by
    unfold decodeInternal
    rw [wpT, wp_bind]
    refine wpT_mono (wpT_decodeHeaders (I := fun _ => True) (fun _ _ => trivial) buf trivial) ?_
    rintro _ s ⟨-, hs⟩
    rw [wp_bind, wp_getDec]
    have hset : ∀ {d d' : Decoder}, d.specEnd ≤ 63 → SetupRel d d' → d'.specEnd ≤ 63 := by
      intro d d' h r
      rw [r.rest]; exact h
    refine wp_ite_of (fun _ => ?_) fun _ => ?_
    · exact wpT_mono (wpT_decodeProgressive stable_spec hset hs) fun _ _ _ => trivial
    · exact wpT_mono (wpT_decodeBaseline stable_spec hset hs) fun _ _ _ => trivial
  unfold Decoder.decodeBuffer
  unfold wpT wp at key
  intro e
  rcases hr : decodeInternal ⟨d, buf⟩ with ⟨_ | _ | _ | _, s⟩ <;> rw [hr] at e key
  · cases e
  · cases e
  · cases e
  · exact key

/-! ### Tiny files -/

/-- A file with one block: 8 x 8, one component, quantization table of ones, one code word `0` in
each Huffman table. -/
def tinyFile : List UInt8 :=
  [0xFF, 0xD8] ++
  [0xFF, 0xDB, 0x00, 0x43, 0x00] ++ List.replicate 64 1 ++
  [0xFF, 0xC0, 0x00, 0x0B, 8, 0, 8, 0, 8, 1, 1, 0x11, 0] ++
  ([0xFF, 0xC4, 0x00, 0x14, 0x00, 1] ++ List.replicate 15 0 ++ [0]) ++
  ([0xFF, 0xC4, 0x00, 0x14, 0x10, 1] ++ List.replicate 15 0 ++ [0]) ++
  [0xFF, 0xDA, 0x00, 0x08, 1, 1, 0x00, 0, 63, 0] ++ [0x3F, 0xFF, 0xD9]

theorem tinyFile_ok : ((Decoder.new ⟨false, false⟩).decodeBuffer tinyFile).1 =
    .ok (List.replicate 64 128) := by
  decide +kernel

/-! ### C48 -/

/-- The same file with a fill byte that hides the frame marker. -/
def fillFile : List UInt8 :=
  [0xFF, 0xD8] ++
  [0xFF, 0xDB, 0x00, 0x43, 0x00] ++ List.replicate 64 1 ++
  [0xFF, 0xFF, 0x00, 0x02, 0xC0, 0x00, 0x0B, 8, 0, 8, 0, 8, 1, 1, 0x11, 0] ++
  ([0xFF, 0xC4, 0x00, 0x14, 0x00, 1] ++ List.replicate 15 0 ++ [0]) ++
  ([0xFF, 0xC4, 0x00, 0x14, 0x10, 1] ++ List.replicate 15 0 ++ [0]) ++
  [0xFF, 0xDA, 0x00, 0x08, 1, 1, 0x00, 0, 63, 0] ++ [0x3F, 0xFF, 0xD9]

/-- **C48** is false as stated: a file without SOF0 and SOF2 marker is decoded. -/
theorem c48_false : ((Decoder.new ⟨false, false⟩).decodeBuffer fillFile).1 =
      .ok (List.replicate 64 128) ∧
    ¬ ∃ pre c post, fillFile = pre ++ 0xFF :: c :: post ∧ (c = 0xC0 ∨ c = 0xC2) := by
  refine ⟨by decide +kernel, ?_⟩
  rintro ⟨pre, c, post, h, hc⟩
  have := noFrameMarker_spec (by decide +kernel) h
  tauto

/-! ### C02 -/

/-- The options are those of the start, up to the colour space, and the limits hold. -/
structure LimitInv (o : Options) (d : Decoder) : Prop where
  spec : d.specEnd ≤ 63
  opts : d.options = { o with outColorspace := d.options.outColorspace }
  lim : Limited d

theorem limited_congr {d d' : Decoder} (h : Limited d) (hi : d'.info = d.info)
    (hw : d'.options.getMaxWidth = d.options.getMaxWidth)
    (hh : d'.options.getMaxHeight = d.options.getMaxHeight) : Limited d' := by
  unfold Limited
  rw [hi, hw, hh]
  exact h

theorem LimitInv.sof {o : Options} {d d' : Decoder} (h : LimitInv o d) {sof : SofMarker}
    {rd rd' : List UInt8} {x y h1 h2 w1 w2 n : UInt8} {cs cs' : List Component}
    (e : SofOk sof d rd d' rd' x y h1 h2 w1 w2 n cs cs') : LimitInv o d' := by
  have hd := e.dec
  have ho : d'.options = if n = 1 then d.options.setOutColorspace .grayscale else d.options := by
    rw [hd]; rfl
  have hopt : d'.options = { o with outColorspace := d'.options.outColorspace } := by
    rw [ho, h.opts]
    split <;> rfl
  refine ⟨by rw [hd]; exact h.spec, hopt, ?_, ?_, ?_, ?_⟩
  · rw [hd]; exact e.wpos
  · rw [hd]; exact e.hpos
  · have := e.wmax
    rw [h.opts] at this
    rw [hopt, hd]; exact this
  · have := e.hmax
    rw [h.opts] at this
    rw [hopt, hd]; exact this

theorem stable_limit (o : Options) : Stable (LimitInv o) where
  spec h := h.spec
  effect := by
    intro m s s' h e
    unfold Effect at e
    split at e
    · obtain ⟨x, y, h1, h2, w1, w2, n, cs, cs', e⟩ := e
      exact h.sof e
    · obtain ⟨x, y, h1, h2, w1, w2, n, cs, cs', e⟩ := e
      exact LimitInv.sof (d := { s.dec with isProgressive := true }) ⟨h.spec, h.opts, h.lim⟩ e
    · obtain ⟨x, y, n, ss, se, a, ps, e⟩ := e
      have ho : s'.dec.options = s.dec.options := by rw [e.dec]
      refine ⟨by rw [e.dec]; exact and63_le _, by rw [ho]; exact h.opts, ?_⟩
      exact limited_congr h.lim (by rw [e.dec]) (by rw [ho]) (by rw [ho])
    · have ho : s'.dec.options = s.dec.options := by rw [e.dec]
      refine ⟨by rw [e.dec]; exact h.spec, by rw [ho]; exact h.opts, ?_⟩
      exact limited_congr h.lim (by rw [e.dec]) (by rw [ho]) (by rw [ho])
  todo _ h := ⟨h.spec, h.opts, h.lim⟩
  preds _ h := ⟨h.spec, h.opts, h.lim⟩

theorem LimitInv.setup {o : Options} {d d' : Decoder} (h : LimitInv o d) (r : SetupRel d d') :
    LimitInv o d' := by
  have hi : d'.info = d.info := by rw [r.rest]
  have hs : d'.specEnd = d.specEnd := by rw [r.rest]
  rcases r.opts with ho | ⟨-, ho⟩
  · exact ⟨by rw [hs]; exact h.spec, by rw [ho]; exact h.opts,
      limited_congr h.lim hi (by rw [ho]) (by rw [ho])⟩
  · refine ⟨by rw [hs]; exact h.spec, ?_,
      limited_congr h.lim hi (by rw [ho]; rfl) (by rw [ho]; rfl)⟩
    rw [ho, h.opts]
    rfl

/-- **C02** for `decode_buffer`: also frame headers found inside the scans are subject to the
limits. -/
theorem c02_decode (cpu : Cpu) (o : Options) (buf v : List UInt8) (d : Decoder)
    (h : (Decoder.newWithOptions cpu o).decodeBuffer buf = (.ok v, d)) :
    0 < d.width.toNat ∧ d.width.toNat ≤ o.getMaxWidth ∧
      0 < d.height.toNat ∧ d.height.toNat ≤ o.getMaxHeight := by
  have key : wpT decodeInternal (fun _ s => LimitInv o s.dec) ⟨Decoder.newWithOptions cpu o, buf⟩ := by
    unfold decodeInternal
    rw [wpT, wp_bind]
    refine M.wp_weaken (wp_mono (wp_decodeHeaders cpu o buf) ?_ (fun _ _ h => h))
      (fun _ => trivial) id
    rintro _ s hs
    have hL : LimitInv o s.dec := ⟨hs.inv.spec.2, hs.inv.opts, limited_of hs⟩
    refine M.wp_weaken (pn := True) (dv := False) ?_ (fun _ => ?_) id
    · rw [wp_bind, wp_getDec]
      refine wp_ite_of (fun _ => ?_) fun _ => ?_
      · exact wpT_mono (wpT_decodeProgressive (stable_limit o) (fun h r => h.setup r) hL)
          fun _ _ h => h.1
      · exact wpT_mono (wpT_decodeBaseline (stable_limit o) (fun h r => h.setup r) hL)
          fun _ _ h => h.1
    · trivial
  unfold Decoder.decodeBuffer at h
  rcases hm : decodeInternal ⟨Decoder.newWithOptions cpu o, buf⟩ with ⟨r, s⟩
  rw [hm] at h
  simp only [Prod.mk.injEq] at h
  obtain ⟨rfl, rfl⟩ := h
  have hq := M.wp_ok key hm
  obtain ⟨-, ho, h1, h2, h3, h4⟩ := hq
  rw [ho] at h3 h4
  refine ⟨?_, h3, ?_, h4⟩
  · apply Nat.pos_of_ne_zero
    intro e; exact h1 (UInt16.toNat_inj.1 e)
  · apply Nat.pos_of_ne_zero
    intro e; exact h2 (UInt16.toNat_inj.1 e)

/-! ### C40 -/

theorem fit_length {α : Type} (n : Nat) (z : α) (l : List α) : (fit n z l).length = n := by
  unfold fit
  simp
  omega

theorem assemble_length (outLen keep : Nat) (parts : List (List UInt8)) :
    (assemble outLen keep parts).length = min keep outLen := by
  unfold assemble
  rw [List.length_take, fit_length]

theorem keep_le_out {d d' : Decoder} (hi : d'.info = d.info)
    (ho : d'.options.outColorspace = d.options.outColorspace)
    (hw : d.info.width.toNat ≤ 65527) (hh : d.info.height.toNat ≤ 65527) :
    keepLen d' ≤ outBufferLen d := by
  unfold keepLen outBufferLen Options.getOutColorspace
  rw [hi, ho]
  have e1 : (d.info.width + 8).toNat = d.info.width.toNat + 8 := by
    rw [UInt16.toNat_add]; exact Nat.mod_eq_of_lt (by have : UInt16.toNat 8 = 8 := rfl; omega)
  have e2 : (d.info.height + 8).toNat = d.info.height.toNat + 8 := by
    rw [UInt16.toNat_add]; exact Nat.mod_eq_of_lt (by have : UInt16.toNat 8 = 8 := rfl; omega)
  dsimp only
  rw [e1, e2]
  refine Nat.le_trans ?_ (Nat.le_add_right _ _)
  exact Nat.mul_le_mul_right _ (Nat.mul_le_mul (by omega) (by omega))

/-- Grayscale input means grayscale output. -/
def GrayOut (d : Decoder) : Prop :=
  d.inputColorspace = .grayscale → d.options.outColorspace = .grayscale

theorem GrayOut.effect {m : Marker} {s s' : H} (h : GrayOut s.dec) (e : Effect m s s') :
    GrayOut s'.dec := by
  have hsof : ∀ {sof : SofMarker} {d : Decoder} {x y h1 h2 w1 w2 n : UInt8}
      {cs cs' : List Component}, GrayOut d →
      SofOk sof d s.rd s'.dec s'.rd x y h1 h2 w1 w2 n cs cs' → GrayOut s'.dec := by
    intro sof d x y h1 h2 w1 w2 n cs cs' hd e
    have ho : s'.dec.options = if n = 1 then d.options.setOutColorspace .grayscale
      else d.options := by rw [e.dec]; rfl
    have hi : s'.dec.inputColorspace = if n = 1 then .grayscale else d.inputColorspace := by
      rw [e.dec]; rfl
    unfold GrayOut
    rw [ho, hi]
    by_cases hn : n = 1
    · rw [if_pos hn, if_pos hn]; intro _; rfl
    · rw [if_neg hn, if_neg hn]; exact hd
  unfold Effect at e
  split at e
  · obtain ⟨x, y, h1, h2, w1, w2, n, cs, cs', e⟩ := e
    exact hsof h e
  · obtain ⟨x, y, h1, h2, w1, w2, n, cs, cs', e⟩ := e
    exact hsof (d := { s.dec with isProgressive := true }) h e
  · obtain ⟨x, y, n, ss, se, a, ps, e⟩ := e
    unfold GrayOut
    rw [e.dec]
    exact h
  · unfold GrayOut
    rw [e.dec]
    exact h

/-- **C40**, for images of at most 65527 x 65527 whose scan data holds no further frame header that
changes the image information: the output has `width() * height() * channels` bytes.

Missing: larger dimensions (only possible after raising the limits), where `width + 8` wraps in
`u16`; and frame headers inside the scan, see `c40_false`. -/
theorem c40_length_partial (cpu : Cpu) (o : Options) (buf v : List UInt8) (d1 d : Decoder)
    (hh : (Decoder.newWithOptions cpu o).readHeaders buf = (.ok (), d1))
    (h : (Decoder.newWithOptions cpu o).decodeBuffer buf = (.ok v, d))
    (hi : d.info = d1.info) (ho : d.getOutputColorspace = d1.getOutputColorspace)
    (hw : d.width.toNat ≤ 65527) (hgt : d.height.toNat ≤ 65527) :
    v.length = d.width.toNat * d.height.toNat * d.getOutputColorspace.numComponents := by
  have hset : ∀ {d d' : Decoder}, d.specEnd ≤ 63 → SetupRel d d' → d'.specEnd ≤ 63 := by
    intro d d' h r
    rw [r.rest]; exact h
  have hg := wpT_decodeHeaders (I := GrayOut) (fun h e => h.effect e) buf
    (d := Decoder.newWithOptions cpu o) (fun h => by cases h)
  unfold Decoder.readHeaders at hh
  rcases hm : decodeHeaders ⟨Decoder.newWithOptions cpu o, buf⟩ with ⟨r, s1⟩
  rw [hm] at hh
  simp only [Prod.mk.injEq] at hh
  obtain ⟨rfl, rfl⟩ := hh
  obtain ⟨hg1, hse⟩ := M.wp_ok hg hm
  unfold Decoder.decodeBuffer at h
  rcases hm2 : decodeInternal ⟨Decoder.newWithOptions cpu o, buf⟩ with ⟨r, s2⟩
  rw [hm2] at h
  simp only [Prod.mk.injEq] at h
  obtain ⟨rfl, rfl⟩ := h
  unfold decodeInternal at hm2
  obtain ⟨_, s1', e1, hm2⟩ := M.bind_ok_inv hm2
  rw [hm] at e1
  cases e1
  obtain ⟨d2, s3, e2, hm2⟩ := M.bind_ok_inv hm2
  cases e2
  split at hm2
  · obtain ⟨-, parts, rfl⟩ := M.wp_ok (wpT_decodeProgressive stable_spec hset hse) hm2
    rw [assemble_length]
    exact Nat.min_eq_left (keep_le_out rfl rfl hw hgt)
  · obtain ⟨-, d2, m, c0, parts, r, -, rfl⟩ :=
      M.wp_ok (wpT_decodeBaseline stable_spec hset hse) hm2
    rw [assemble_length]
    have hi2 : d2.info = s1.dec.info := by rw [r.rest]
    refine Nat.min_eq_left (keep_le_out (d := d2) (hi.trans hi2.symm) ?_ ?_ ?_)
    · have ho' : s2.dec.options.outColorspace = s1.dec.options.outColorspace := ho
      rw [ho']
      rcases r.opts with h | ⟨h1, h⟩
      · rw [h]
      · rw [h, hg1 h1]; rfl
    · rw [hi2, ← hi]; exact hw
    · rw [hi2, ← hi]; exact hgt

/-- The hypotheses are met by the tiny file. -/
example : ∃ d1 d v, (Decoder.newWithOptions ⟨false, false⟩ .new).readHeaders tinyFile = (.ok (), d1) ∧
    (Decoder.newWithOptions ⟨false, false⟩ .new).decodeBuffer tinyFile = (.ok v, d) ∧
    d.info = d1.info ∧ d.getOutputColorspace = d1.getOutputColorspace ∧
    d.width.toNat ≤ 65527 ∧ d.height.toNat ≤ 65527 := by
  refine ⟨((Decoder.newWithOptions ⟨false, false⟩ .new).readHeaders tinyFile).2,
    ((Decoder.newWithOptions ⟨false, false⟩ .new).decodeBuffer tinyFile).2,
    List.replicate 64 128, ?_, ?_, ?_⟩
  · have : ((Decoder.newWithOptions ⟨false, false⟩ .new).readHeaders tinyFile).1 = .ok () := by
      decide +kernel
    rw [← this]
  · have := tinyFile_ok
    unfold Decoder.new at this
    rw [← this]
  · decide +kernel

/-- A file of 8 x 8 samples whose scan is followed by a frame header for 32 x 32 samples. -/
def lateFrameFile : List UInt8 :=
  [0xFF, 0xD8] ++
  [0xFF, 0xDB, 0x00, 0x43, 0x00] ++ List.replicate 64 1 ++
  [0xFF, 0xC0, 0x00, 0x0B, 8, 0, 8, 0, 8, 1, 1, 0x11, 0] ++
  [0xFF, 0xDB, 0x00, 0x43, 0x00] ++ List.replicate 64 1 ++
  ([0xFF, 0xC4, 0x00, 0x14, 0x00, 1] ++ List.replicate 15 0 ++ [0]) ++
  ([0xFF, 0xC4, 0x00, 0x14, 0x10, 1] ++ List.replicate 15 0 ++ [0]) ++
  [0xFF, 0xDA, 0x00, 0x08, 1, 1, 0x00, 0, 63, 0] ++
  [0x3F, 0xFF, 0xC0, 0x00, 0x0B, 8, 0, 32, 0, 32, 1, 1, 0x11, 0, 0xFF, 0xD9]

/-- **C40** is false as stated: `decode_buffer` returns 256 bytes, and then says that the image has
32 x 32 samples of one channel. -/
theorem c40_false :
    ((Decoder.new ⟨false, false⟩).decodeBuffer lateFrameFile).1.toOption.map List.length = some 256 ∧
    ((Decoder.new ⟨false, false⟩).decodeBuffer lateFrameFile).2.width = 32 ∧
    ((Decoder.new ⟨false, false⟩).decodeBuffer lateFrameFile).2.height = 32 ∧
    ((Decoder.new ⟨false, false⟩).decodeBuffer lateFrameFile).2.getOutputColorspace = .grayscale := by
  decide +kernel

/-! ### C43 -/

namespace Spec

/-- `Scans n t m bufs t' bufs'`: from the marker `m` on, exactly `n` scans (SOS segments followed by
entropy coded data) are decoded until a marker that is neither DHT nor SOS. -/
inductive Scans : Nat → T → Marker → List (List I16) → T → List (List I16) → Prop
  | stop {t m bufs} : m ≠ .dht → m ≠ .sos → Scans 0 t m bufs t bufs
  | table {n t t1 t2 m bufs t' bufs'} : liftH parseHuffman t = (.ok (), t1) →
      getMarker t1 = (.ok m, t2) → Scans n t2 m bufs t' bufs' → Scans n t .dht bufs t' bufs'
  | scan {n t t1 t2 t3 m bufs bufs1 t' bufs'} : liftH parseSos t = (.ok (), t1) →
      parseEntropy bufs { t1 with io := { t1.io with
        bs := t1.io.bs.updateProgressiveParams t1.dec.succHigh t1.dec.succLow t1.dec.specStart
          t1.dec.specEnd } } = (.ok bufs1, t2) →
      getMarker t2 = (.ok m, t3) →
      Scans n { t3 with io := { t3.io with bs := t3.io.bs.reset } } m bufs1 t' bufs' →
      Scans (n + 1) t .sos bufs t' bufs'

/-- The headers of the file announce a progressive image, and `n` scans of it are decoded, the first
of them being the one whose header ends the header segments. -/
structure ProgressiveScans (d : Decoder) (buf : List UInt8) (n : Nat) : Prop where
  decoded : ∃ (h : H) (mw : Nat) (bufs bufs1 bufs2 : List (List I16)) (t1 t2 t3 : T) (m : Marker),
    decodeHeaders ⟨d, buf⟩ = (.ok (), h) ∧ h.dec.isProgressive = true ∧
    progAlloc h.dec = .ok (mw, bufs) ∧
    parseEntropy bufs { dec := h.dec, io := progIo h } = (.ok bufs1, t1) ∧
    takeMarker t1 = (.ok m, t2) ∧ ∃ k, Scans k t2 m bufs1 t3 bufs2 ∧ n = k + 1

end Spec

theorem Scans.unique {n n' : Nat} {t : T} {m : Marker} {bufs : List (List I16)} {t1 t2 : T}
    {b1 b2 : List (List I16)} (h : Scans n t m bufs t1 b1) (h' : Scans n' t m bufs t2 b2) :
    n = n' := by
  induction h generalizing n' with
  | stop h1 h2 =>
    cases h' with
    | stop => rfl
    | table => exact absurd rfl h1
    | scan => exact absurd rfl h2
  | table e1 e2 _ ih =>
    cases h' with
    | stop h1 => exact absurd rfl h1
    | table f1 f2 h' =>
      rw [e1] at f1; cases f1
      rw [e2] at f2; cases f2
      exact ih h'
  | scan e1 e2 e3 _ ih =>
    cases h' with
    | stop _ h2 => exact absurd rfl h2
    | scan f1 f2 f3 h' =>
      rw [e1] at f1; cases f1
      rw [e2] at f2; cases f2
      rw [e3] at f3; cases f3
      rw [ih h']

/-- Scans keep the options, up to the colour space. -/
def SameLimits (o : Options) (d : Decoder) : Prop :=
  d.specEnd ≤ 63 ∧ d.options.getMaxScans = o.getMaxScans

theorem stable_sameLimits (o : Options) : Stable (SameLimits o) where
  spec h := h.1
  effect := by
    intro m s s' h e
    refine ⟨stable_spec.effect h.1 e, ?_⟩
    have hsof : ∀ {sof : SofMarker} {d : Decoder} {x y h1 h2 w1 w2 n : UInt8}
        {cs cs' : List Component}, d.options.getMaxScans = o.getMaxScans →
        SofOk sof d s.rd s'.dec s'.rd x y h1 h2 w1 w2 n cs cs' →
        s'.dec.options.getMaxScans = o.getMaxScans := by
      intro sof d x y h1 h2 w1 w2 n cs cs' hd e
      have ho : s'.dec.options = if n = 1 then d.options.setOutColorspace .grayscale
        else d.options := by rw [e.dec]; rfl
      rw [ho]
      split <;> exact hd
    unfold Effect at e
    split at e
    · obtain ⟨x, y, h1, h2, w1, w2, n, cs, cs', e⟩ := e
      exact hsof h.2 e
    · obtain ⟨x, y, h1, h2, w1, w2, n, cs, cs', e⟩ := e
      exact hsof (d := { s.dec with isProgressive := true }) h.2 e
    · obtain ⟨x, y, n, ss, se, a, ps, e⟩ := e
      rw [e.dec]; exact h.2
    · rw [e.dec]; exact h.2
  todo _ h := h
  preds _ h := h

theorem TI.params {I : Decoder → Prop} {rd0 : List UInt8} {t : T} (h : TI I rd0 t)
    (hs : t.dec.specEnd ≤ 63) :
    TI I rd0 { t with io := { t.io with
      bs := t.io.bs.updateProgressiveParams t.dec.succHigh t.dec.succLow t.dec.specStart
        t.dec.specEnd } } :=
  ⟨h.dec, h.rd, hs⟩

theorem scanLoop_scans {o : Options} {rd0 : List UInt8} : ∀ (fuel seen : Nat) (m : Marker)
    (bufs : List (List I16)) (t : T) (b' : List (List I16)) (t' : T),
    TI (SameLimits o) rd0 t → scanLoop fuel seen m bufs t = (.ok b', t') →
    ∃ n, Scans n t m bufs t' b' ∧ (0 < n → seen + n ≤ o.getMaxScans)
  | 0, seen, m, bufs, t, b', t', _, h => by
    unfold scanLoop at h
    by_cases hm : m = .eoi
    · subst hm
      simp only [ne_eq, not_true_eq_false, if_false] at h
      cases h
      exact ⟨0, .stop (by decide) (by decide), fun h => absurd h (by omega)⟩
    · rw [if_pos hm] at h; cases h
  | fuel + 1, seen, m, bufs, t, b', t', hI, h => by
    have S := stable_sameLimits o
    unfold scanLoop at h
    have stop : ∀ m : Marker, m ≠ .dht → m ≠ .sos →
        (pure bufs : M T _) t = (.ok b', t') →
        ∃ n, Scans n t m bufs t' b' ∧ (0 < n → seen + n ≤ o.getMaxScans) := by
      intro m h1 h2 h
      cases h
      exact ⟨0, .stop h1 h2, fun h => absurd h (by omega)⟩
    cases m
    case dht =>
      dsimp only at h
      obtain ⟨_, t1, e1, h⟩ := M.bind_ok_inv h
      obtain ⟨m', t2, e2, h⟩ := M.bind_ok_inv h
      have h1 := M.wp_ok (wpT_liftMarker' S .dht hI) e1
      have h2 := M.wp_ok (wpT_getMarker h1.1) e2
      obtain ⟨n, hn, hb⟩ := scanLoop_scans fuel seen m' bufs t2 b' t' h2.1 h
      exact ⟨n, .table e1 e2 hn, hb⟩
    case sos =>
      obtain ⟨_, t1, e1, h⟩ := M.bind_ok_inv h
      obtain ⟨_, t1', e1', h⟩ := M.bind_ok_inv h
      cases e1'
      obtain ⟨bufs1, t2, e2, h⟩ := M.bind_ok_inv h
      obtain ⟨m', t3, e3, h⟩ := M.bind_ok_inv h
      obtain ⟨_, t3', e3', h⟩ := M.bind_ok_inv h
      cases e3'
      have h1 := M.wp_ok (wpT_liftMarker' S .sos hI) e1
      have h2 := M.wp_ok (wpT_parseEntropy S bufs (TI.params h1.1 (S.spec h1.1.dec))) e2
      have h3 := M.wp_ok (wpT_getMarker h2) e3
      split at h
      · cases h
      · rename_i hle
        obtain ⟨_, t4, e4, h⟩ := M.bind_ok_inv h
        cases e4
        obtain ⟨n, hn, hb⟩ := scanLoop_scans fuel (seen + 1) m' bufs1
          { t3 with io := { t3.io with bs := t3.io.bs.reset } } b' t'
          ⟨h3.1.dec, h3.1.rd, h3.1.se⟩ h
        refine ⟨n + 1, .scan e1 e2 e3 hn, fun _ => ?_⟩
        rw [h3.1.dec.2] at hle
        by_cases h0 : 0 < n
        · have := hb h0; omega
        · omega
    all_goals exact stop _ (by simp) (by simp) h

/-- **C43.** If a progressive image decodes to `Ok`, then a number of scans was decoded, and it is at
most `max(1, max_scans)`. -/
theorem c43_scan_limit (d d' : Decoder) (buf v : List UInt8) (d1 : Decoder)
    (hh : d.readHeaders buf = (.ok (), d1)) (hp : d1.isProgressive = true)
    (h : d.decodeBuffer buf = (.ok v, d')) :
    (∃ n, ProgressiveScans d buf n) ∧
      ∀ n, ProgressiveScans d buf n → n ≤ max 1 d.options.getMaxScans := by
  suffices ∃ n, ProgressiveScans d buf n ∧ n ≤ max 1 d.options.getMaxScans by
    obtain ⟨n, hn, hle⟩ := this
    refine ⟨⟨n, hn⟩, fun n' hn' => ?_⟩
    obtain ⟨h1, mw, bufs, bufs1, bufs2, t1, t2, t3, m, a1, a2, a3, a4, a5, k, a6, rfl⟩ := hn.decoded
    obtain ⟨h1', mw', bufs', bufs1', bufs2', t1', t2', t3', m', b1, b2, b3, b4, b5, k', b6, rfl⟩ :=
      hn'.decoded
    rw [a1] at b1; cases b1
    rw [a3] at b3; cases b3
    rw [a4] at b4; cases b4
    rw [a5] at b5; cases b5
    rw [Scans.unique b6 a6]
    exact hle
  have ho := wpT_decodeHeaders (I := fun d' => d'.options.getMaxScans = d.options.getMaxScans)
    (fun {m s s'} h e => by
      have hsof : ∀ {sof : SofMarker} {d1 : Decoder} {x y h1 h2 w1 w2 n : UInt8}
          {cs cs' : List Component}, d1.options.getMaxScans = d.options.getMaxScans →
          SofOk sof d1 s.rd s'.dec s'.rd x y h1 h2 w1 w2 n cs cs' →
          s'.dec.options.getMaxScans = d.options.getMaxScans := by
        intro sof d1 x y h1 h2 w1 w2 n cs cs' hd e
        have ho : s'.dec.options = if n = 1 then d1.options.setOutColorspace .grayscale
          else d1.options := by rw [e.dec]; rfl
        rw [ho]
        split <;> exact hd
      unfold Effect at e
      split at e
      · obtain ⟨x, y, h1, h2, w1, w2, n, cs, cs', e⟩ := e
        exact hsof h e
      · obtain ⟨x, y, h1, h2, w1, w2, n, cs, cs', e⟩ := e
        exact hsof (d1 := { s.dec with isProgressive := true }) h e
      · obtain ⟨x, y, n, ss, se, a, ps, e⟩ := e
        rw [e.dec]; exact h
      · rw [e.dec]; exact h) buf (d := d) rfl
  unfold Decoder.readHeaders at hh
  rcases hm : decodeHeaders ⟨d, buf⟩ with ⟨r, s1⟩
  rw [hm] at hh
  simp only [Prod.mk.injEq] at hh
  obtain ⟨rfl, rfl⟩ := hh
  obtain ⟨hlim, hse⟩ := M.wp_ok ho hm
  unfold Decoder.decodeBuffer at h
  rcases hm2 : decodeInternal ⟨d, buf⟩ with ⟨r, s2⟩
  rw [hm2] at h
  simp only [Prod.mk.injEq] at h
  obtain ⟨rfl, rfl⟩ := h
  unfold decodeInternal at hm2
  obtain ⟨_, s1', e1, hm2⟩ := M.bind_ok_inv hm2
  rw [hm] at e1
  cases e1
  obtain ⟨_, s3, e2, hm2⟩ := M.bind_ok_inv hm2
  cases e2
  rw [if_pos hp] at hm2
  unfold decodeProgressive at hm2
  obtain ⟨_, s3, e3, hm2⟩ := M.bind_ok_inv hm2
  cases e3
  obtain ⟨_, s3, e3, hm2⟩ := M.bind_ok_inv hm2
  have : s3 = s1 := by
    unfold M.ofOut at e3; simp only [Prod.mk.injEq] at e3; exact e3.2.symm
  subst this
  obtain ⟨mb, s3', e4, hm3⟩ := M.bind_ok_inv hm2
  have : progAlloc s3.dec = .ok mb ∧ s3' = s3 := by
    unfold M.ofOut at e4
    simp only [Prod.mk.injEq] at e4
    exact ⟨e4.1, e4.2.symm⟩
  obtain ⟨e4, rfl⟩ := this
  obtain ⟨bufs2, s4, e5, -⟩ := M.bind_ok_inv hm3
  unfold runScans at e5
  rcases e6 : progScans mb.2 { dec := s3'.dec, io := progIo s3' } with ⟨r, t3⟩
  rw [e6] at e5
  simp only [Prod.mk.injEq] at e5
  obtain ⟨rfl, -⟩ := e5
  unfold progScans at e6
  obtain ⟨bufs1, t1, e7, e6⟩ := M.bind_ok_inv e6
  obtain ⟨m, t2, e8, e6⟩ := M.bind_ok_inv e6
  obtain ⟨_, t2', e9, e6⟩ := M.bind_ok_inv e6
  cases e9
  have S := stable_sameLimits d.options
  have h1 := M.wp_ok (wpT_parseEntropy S mb.2 (rd0 := s3'.rd)
    (t := { dec := s3'.dec, io := progIo s3' }) ⟨⟨hse, hlim⟩, List.suffix_refl _, hse⟩) e7
  have h2 := M.wp_ok (wpT_takeMarker h1) e8
  obtain ⟨n, hn, hb⟩ := scanLoop_scans _ 1 m bufs1 t2 bufs2 t3 h2.1 e6
  refine ⟨n + 1, ⟨_, mb.1, mb.2, bufs1, bufs2, t1, t2, t3, m, hm, hp, e4, e7, e8, n, hn, rfl⟩, ?_⟩
  by_cases h0 : 0 < n
  · have := hb h0; omega
  · omega

/-- A progressive file of one block with two scans, the DC scan and one AC scan. -/
def tinyProgFile : List UInt8 :=
  [0xFF, 0xD8] ++
  [0xFF, 0xDB, 0x00, 0x43, 0x00] ++ List.replicate 64 1 ++
  [0xFF, 0xC2, 0x00, 0x0B, 8, 0, 8, 0, 8, 1, 1, 0x11, 0] ++
  ([0xFF, 0xC4, 0x00, 0x14, 0x00, 1] ++ List.replicate 15 0 ++ [3]) ++
  ([0xFF, 0xC4, 0x00, 0x14, 0x10, 1] ++ List.replicate 15 0 ++ [0]) ++
  [0xFF, 0xDA, 0x00, 0x08, 1, 1, 0x00, 0, 0, 0] ++ [0x7F] ++
  [0xFF, 0xDA, 0x00, 0x08, 1, 1, 0x00, 1, 63, 0] ++ [0x7F, 0xFF, 0xD9]

/-- With a limit of two scans the file is decoded, with a limit of one it is refused: the bound of
`c43_scan_limit` is met with equality. -/
theorem tinyProgFile_limit :
    ((Decoder.newWithOptions ⟨false, false⟩ (Options.new.setMaxScans 2)).decodeBuffer tinyProgFile).1
      = .ok (List.replicate 64 128) ∧
    ((Decoder.newWithOptions ⟨false, false⟩ (Options.new.setMaxScans 1)).decodeBuffer tinyProgFile).1
      = .err .format ∧
    ((Decoder.newWithOptions ⟨false, false⟩ (Options.new.setMaxScans 2)).readHeaders
      tinyProgFile).2.isProgressive = true := by
  decide +kernel

end Zune
