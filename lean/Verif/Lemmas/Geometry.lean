import Verif.Lemmas.Decode
import Mathlib.Tactic.Ring
/-! The shape of an image and of the strips it is decoded in. -/

namespace Zune
open M (wp wp_bind wp_mono wp_pure wp_throw wp_idx wp_idx_of wp_okOr wp_ofOut wp_failIf wp_ite_of
  wp_diverge wp_panic wp_unwrap wp_get wp_modify)

namespace Spec

/-- A decoder that has read the frame header of a `w` times `h` image in which the first component has
sampling factors `fh` and `fv` and the other components are 1x1. It is the luma component unless all of them
are 1x1. -/
structure Frame (d : Decoder) (w h fh fv : Nat) : Prop where
  width : d.info.width.toNat = w
  height : d.info.height.toNat = h
  wpos : 0 < w
  hpos : 0 < h
  fpos : 0 < fh ∧ 0 < fv
  hMax : d.hMax = fh
  vMax : d.vMax = fv
  inter : d.interleaved = !decide (fh = 1 ∧ fv = 1)
  ratio : fh = 1 ∧ fv = 1 → d.subSampleRatio = .none
  mcuX : d.mcuX = (w + 8 * fh - 1) / (8 * fh)
  mcuY : d.mcuY = (h + 8 * fv - 1) / (8 * fv)
  comps : ∃ c cs, d.components = c :: cs ∧ (¬ (fh = 1 ∧ fv = 1) → c.componentId = .y) ∧ c.horizontalSample = fh ∧
    c.verticalSample = fv ∧ c.widthStride = fh * (d.mcuX * 8) ∧
    ∀ x ∈ cs, (¬ (fh = 1 ∧ fv = 1) → x.componentId ≠ .y) ∧ x.horizontalSample = 1 ∧ x.verticalSample = 1 ∧
      x.widthStride = d.mcuX * 8

/-- The strips of a baseline scan of a `w` times `h` image with luma sampling factors `fh` and
`fv`. Some of the arithmetic is in `u16` and wraps around for sizes near 65536. -/
structure Geometry (s : Scan) (w h fh fv : Nat) : Prop where
  width : s.width = w
  counts :
    (fh = 1 ∧ fv = 1 ∧ s.mcuWidth = (w + 7) % 65536 / 8 ∧ s.mcuHeight = (h + 7) % 65536 / 8 ∧
      s.bias = 1 ∧ s.isHv = false) ∨
    (fh = 2 ∧ fv = 1 ∧ s.mcuWidth = (w + 15) / 16 * 2 ∧ s.mcuHeight = (h + 7) / 8 / 2 ∧
      s.bias = 1 ∧ s.isHv = false) ∨
    (fh = 1 ∧ fv = 2 ∧ s.mcuWidth = (w + 7) / 8 ∧ s.mcuHeight = (h + 15) / 16 ∧ s.bias = 1 ∧
      s.isHv = false) ∨
    (fh = 2 ∧ fv = 2 ∧ s.mcuWidth = (w + 15) / 16 ∧ s.mcuHeight = (h + 15) / 16 / 2 ∧
      s.bias = 2 ∧ s.isHv = true)
  stride : s.widthStride = s.mcuWidth * 64 * fv * fh * s.bias / 2
  hvStride : s.hvWidthStride = s.widthStride / 2
  chunk : s.chunk = w * s.outCs.numComponents * 8 * fh * fv
  outLen : ∃ extra, s.outLen = (w + 8) % 65536 * ((h + 8) % 65536) * s.outCs.numComponents + extra ∧
    (¬ (fh = 1 ∧ fv = 1) → extra = 128 * h * s.outCs.numComponents)
  comps : ∃ c cs, s.comps = c :: cs ∧ (¬ (fh = 1 ∧ fv = 1) → c.componentId = .y) ∧ c.horizontalSample = fh ∧
    c.verticalSample = fv ∧
    ∀ x ∈ cs, (¬ (fh = 1 ∧ fv = 1) → x.componentId ≠ .y) ∧ x.horizontalSample = 1 ∧ x.verticalSample = 1

/-- A grayscale image is decoded as if its sampling factors were 1. -/
def factor (d : Decoder) (f : Nat) : Nat := if d.inputColorspace = .grayscale then 1 else f

end Spec
open Spec

/-- A frame header read by a decoder that was not used before. -/
theorem frame_of_sof {sof : SofMarker} {d d' : Decoder} {rd rd' : List UInt8}
    {x y h1 h2 w1 w2 n : UInt8} {cs : List Component} {c : Component} {rest : List Component}
    (h : SofOk sof d rd d' rd' x y h1 h2 w1 w2 n cs (c :: rest))
    (e1 : d.hMax = 1) (e2 : d.vMax = 1) (e3 : d.interleaved = false)
    (e4 : d.subSampleRatio = .none)
    (hy : ¬ (c.horizontalSample = 1 ∧ c.verticalSample = 1) → c.componentId = .y)
    (hr : ∀ x ∈ rest, (¬ (c.horizontalSample = 1 ∧ c.verticalSample = 1) → x.componentId ≠ .y) ∧ x.horizontalSample = 1 ∧ x.verticalSample = 1) :
    Frame d' (be16 w1 w2).toNat (be16 h1 h2).toNat c.horizontalSample c.verticalSample := by
  have hset := h.setup
  rw [e1, e2] at hset
  cases hset with
  | @cons _ _ c0 cs0 _ _ qt hq he hrest =>
  have hc0 := h.fresh c0 (by simp)
  have hpow : 1 ≤ c0.horizontalSample ∧ 1 ≤ c0.verticalSample := by
    obtain ⟨k, -, hk⟩ := hc0.1.h
    obtain ⟨l, -, hl⟩ := hc0.1.v
    exact ⟨hk ▸ Nat.one_le_two_pow, hl ▸ Nat.one_le_two_pow⟩
  have f1 : c.horizontalSample = c0.horizontalSample := by rw [he]
  have f2 : c.verticalSample = c0.verticalSample := by rw [he]
  have f3 : ∀ a, maxH a (c :: rest) = max a c.horizontalSample ∨ a = 0 := by
    intro a
    rcases Nat.eq_zero_or_pos a with h0 | h0
    · exact Or.inr h0
    left
    unfold maxH
    rw [List.foldl_cons]
    have : ∀ (l : List Component) (b : Nat), 1 ≤ b → (∀ x ∈ l, x.horizontalSample = 1) →
        l.foldl (fun m c => max m c.horizontalSample) b = b := by
      intro l
      induction l with
      | nil => intros; rfl
      | cons a l ih =>
        intro b hb hl
        rw [List.foldl_cons, hl a (by simp), Nat.max_eq_left hb]
        exact ih b hb fun x hx => hl x (by simp [hx])
    exact this _ _ (by omega) fun x hx => (hr x hx).2.1
  have f4 : ∀ a, maxV a (c :: rest) = max a c.verticalSample ∨ a = 0 := by
    intro a
    rcases Nat.eq_zero_or_pos a with h0 | h0
    · exact Or.inr h0
    left
    unfold maxV
    rw [List.foldl_cons]
    have : ∀ (l : List Component) (b : Nat), 1 ≤ b → (∀ x ∈ l, x.verticalSample = 1) →
        l.foldl (fun m c => max m c.verticalSample) b = b := by
      intro l
      induction l with
      | nil => intros; rfl
      | cons a l ih =>
        intro b hb hl
        rw [List.foldl_cons, hl a (by simp), Nat.max_eq_left hb]
        exact ih b hb fun x hx => hl x (by simp [hx])
    exact this _ _ (by omega) fun x hx => (hr x hx).2.2
  have g1 : maxH 1 (c :: rest) = c.horizontalSample := by
    rcases f3 1 with h | h <;> omega
  have g2 : maxV 1 (c :: rest) = c.verticalSample := by
    rcases f4 1 with h | h <;> omega
  have hstr : ∀ (l l' : List Component) (a b : Nat), 1 ≤ a →
      Setup (sofStart d sof (be16 h1 h2) (be16 w1 w2) n) a b l l' →
      (∀ c ∈ l, FreshComponent c) → (∀ x ∈ l', x.horizontalSample = 1) →
      ∀ x ∈ l', x.widthStride = ((be16 w1 w2).toNat + a * 8 - 1) / (a * 8) * 8 := by
    intro l l' a b ha hs
    induction hs with
    | nil => simp
    | @cons hh v q qs q' qs' qt' _ he' _ ih =>
      intro hf h1' x hx
      have hq1 : q.horizontalSample = 1 := by
        have := h1' q' (by simp)
        rw [he'] at this
        exact this
      have hm : max hh q.horizontalSample = hh := by omega
      rcases List.mem_cons.1 hx with rfl | hx
      · rw [he']
        dsimp only
        rw [(hf q (by simp)).2.1, hq1, Nat.one_mul, Nat.max_eq_left ha]
        rfl
      · rw [hm] at ih
        exact ih ha (fun c hc => hf c (by simp [hc])) (fun x hx => h1' x (by simp [hx])) x hx
  have hdec := h.dec
  have eX : d'.mcuX = ((be16 w1 w2).toNat + c.horizontalSample * 8 - 1) /
      (c.horizontalSample * 8) := by
    rw [hdec]; unfold sofDecoder; rw [e1, g1]; rfl
  have ec : d'.components = c :: rest := by rw [hdec]; rfl
  constructor
  · rw [hdec]; rfl
  · rw [hdec]; rfl
  · have := h.wpos
    rcases Nat.eq_zero_or_pos (be16 w1 w2).toNat with h0 | h0
    · exact absurd (UInt16.toNat_inj.1 (by simpa using h0)) this
    · exact h0
  · have := h.hpos
    rcases Nat.eq_zero_or_pos (be16 h1 h2).toNat with h0 | h0
    · exact absurd (UInt16.toNat_inj.1 (by simpa using h0)) this
    · exact h0
  · rw [f1, f2]; exact hpow
  · rw [hdec]; unfold sofDecoder; rw [e1, g1]; rfl
  · rw [hdec]; unfold sofDecoder; rw [e2, g2]; rfl
  · rw [hdec]; unfold sofDecoder; rw [e1, g1, e2, g2]
    show (if c.horizontalSample ≠ 1 ∨ c.verticalSample ≠ 1 then true else d.interleaved) = _
    rw [e3]
    by_cases hh : c.horizontalSample = 1 <;> by_cases hv : c.verticalSample = 1 <;> simp [hh, hv]
  · rw [hdec]; exact fun _ => e4
  · rw [eX, Nat.mul_comm 8]
  · rw [hdec]; unfold sofDecoder; rw [e2, g2]
    show ((be16 h1 h2).toNat + c.verticalSample * 8 - 1) / (c.verticalSample * 8) = _
    rw [Nat.mul_comm 8]
  · refine ⟨c, rest, ec, hy, rfl, rfl, ?_, fun x hx => ?_⟩
    · rw [eX, he]
      dsimp only
      rw [hc0.2.1, Nat.max_eq_right hpow.1]
      rfl
    · have := hstr _ _ _ _ (by omega) hrest (fun c hc => h.fresh c (by simp [hc]))
        (fun x hx => (hr x hx).2.1) x hx
      obtain ⟨a1, a2, a3⟩ := hr x hx
      refine ⟨a1, a2, a3, ?_⟩
      rw [this, eX, f1, Nat.max_eq_right hpow.1]

theorem blocks8_wrap (w : UInt16) : blocks8 w = (w.toNat + 7) % 65536 / 8 := by
  unfold blocks8
  rw [UInt16.toNat_div, UInt16.toNat_add]
  rfl

theorem blocks8_eq {w : UInt16} (h : w.toNat ≤ 65527) : blocks8 w = (w.toNat + 7) / 8 := by
  rw [blocks8_wrap, Nat.mod_eq_of_lt (by omega)]

theorem add8_wrap (w : UInt16) : (w + 8).toNat = (w.toNat + 8) % 65536 := by
  rw [UInt16.toNat_add]
  rfl

theorem add8_eq {w : UInt16} (h : w.toNat ≤ 65527) : (w + 8).toNat = w.toNat + 8 := by
  rw [add8_wrap]
  exact Nat.mod_eq_of_lt (by omega)

section
variable {w h fh fv : Nat}

/-- What the preparations leave of the frame. -/
structure Prepared (d d' : Decoder) (w h fh fv : Nat) (r : SubSampRatios) : Prop where
  info : d'.info = d.info
  inter : d'.interleaved = d.interleaved
  cs : d'.inputColorspace = d.inputColorspace
  hMax : d'.hMax = fh
  vMax : d'.vMax = fv
  ratio : d'.subSampleRatio = r
  comps : ∃ c cs, d'.components = c :: cs ∧ (¬ (fh = 1 ∧ fv = 1) → c.componentId = .y) ∧ c.horizontalSample = fh ∧
    c.verticalSample = fv ∧
    ∀ x ∈ cs, (¬ (fh = 1 ∧ fv = 1) → x.componentId ≠ .y) ∧ x.horizontalSample = 1 ∧ x.verticalSample = 1

/-- The four samplings, the ratio they are given and the counts. -/
def Modes (w h fh fv : Nat) (r : SubSampRatios) (m : Nat × Nat × Nat) : Prop :=
  (fh = 1 ∧ fv = 1 ∧ r = .none ∧
    m = ((w + 7) % 65536 / 8, (h + 7) % 65536 / 8, 1)) ∨
  (fh = 2 ∧ fv = 1 ∧ r = .h ∧ m = ((w + 15) / 16 * 2, (h + 7) / 8 / 2, 1)) ∨
  (fh = 1 ∧ fv = 2 ∧ r = .v ∧ m = ((w + 7) / 8, (h + 15) / 16, 1)) ∨
  (fh = 2 ∧ fv = 2 ∧ r = .hv ∧ m = ((w + 15) / 16, (h + 15) / 16 / 2, 2))

theorem wpT_mcuCounts_frame {s : H} (F : Frame s.dec w h fh fv) :
    wpT mcuCounts (fun m s' => ∃ r, Prepared s.dec s'.dec w h fh fv r ∧
      Modes w h fh fv r m) s := by
  obtain ⟨c, cs, hc, c1, c2, c3, c4, hcs⟩ := F.comps
  unfold mcuCounts
  rw [wpT, wp_bind, wp_getDec]
  have hi := F.inter
  refine wp_ite_of (fun hyes => ?_) fun hno => ?_
  · rw [wp_bind]
    refine wpT_mono wpT_setUpsampling ?_
    rintro _ s' ⟨h1, h2⟩
    rw [wp_bind, wp_getDec]
    rw [hyes] at hi
    rcases setUpsampling_ok h2 with ⟨g1, g2, g3⟩ | ⟨r, u, c', cs', g1, g2, g3⟩
    · rw [F.hMax] at g1
      rw [F.vMax] at g2
      simp [g1, g2] at hi
    · rw [hc] at g2
      obtain ⟨rfl, rfl⟩ := List.cons.inj g2
      rw [F.hMax, F.vMax] at g1
      have P : Prepared s.dec s'.dec w h fh fv r := by
        refine ⟨by rw [g3], by rw [g3], by rw [g3], by rw [g3]; exact F.hMax,
          by rw [g3]; exact F.vMax, by rw [g3], ?_⟩
        refine ⟨c, cs.map fun x => { x with upSampler := u }, by rw [g3], c1, c2, c3, ?_⟩
        intro x hx
        obtain ⟨y, hy, rfl⟩ := List.mem_map.1 hx
        exact ⟨(hcs y hy).1, (hcs y hy).2.1, (hcs y hy).2.2.1⟩
      have hr := P.ratio
      have eX : s'.dec.mcuX = s.dec.mcuX := by rw [g3]
      have eY : s'.dec.mcuY = s.dec.mcuY := by rw [g3]
      rw [hr, eX, eY, F.mcuX, F.mcuY]
      rcases g1 with ⟨q1, q2, q3, -⟩ | ⟨q1, q2, q3, -⟩ | ⟨q1, q2, q3, -⟩ <;>
        simp only [q1, q2] at P ⊢
      · rw [if_pos q3]
        exact ⟨r, P, Or.inr (Or.inl ⟨rfl, rfl, q3, by norm_num⟩)⟩
      · rw [if_neg (by rw [q3]; decide), if_neg (by rw [q3]; decide)]
        exact ⟨r, P, Or.inr (Or.inr (Or.inl ⟨rfl, rfl, q3, by norm_num⟩))⟩
      · rw [if_neg (by rw [q3]; decide), if_pos q3]
        exact ⟨r, P, Or.inr (Or.inr (Or.inr ⟨rfl, rfl, q3, by norm_num⟩))⟩
  · have hno' : s.dec.interleaved = false := by simpa using hno
    rw [hno'] at hi
    have h11 : fh = 1 ∧ fv = 1 := by simpa using hi.symm
    refine ⟨.none, ⟨rfl, rfl, rfl, F.hMax, F.vMax, F.ratio h11, c, cs, hc, c1, c2, c3,
      fun x hx => ⟨(hcs x hx).1, (hcs x hx).2.1, (hcs x hx).2.2.1⟩⟩, ?_⟩
    refine Or.inl ⟨h11.1, h11.2, rfl, ?_⟩
    rw [blocks8_wrap, blocks8_wrap, F.width, F.height]

theorem wpT_grayReset_frame {d : Decoder} {m : Nat × Nat × Nat} {r : SubSampRatios} {s : H}
    (F : Frame d w h fh fv)
    (P : Prepared d s.dec w h fh fv r) (hm : Modes w h fh fv r m) :
    wpT (grayReset m) (fun m' s' => ∃ r', Prepared d s'.dec w h (factor d fh) (factor d fv) r' ∧
      Modes w h (factor d fh) (factor d fv) r' m') s := by
  unfold grayReset
  rw [wpT, wp_bind, wp_getDec]
  refine wp_ite_of (fun hg => ?_) fun hno => ?_
  · refine wp_ite_of (fun _ => trivial) fun _ => ?_
    refine wp_ite_of (fun _ => trivial) fun _ => ?_
    rw [wp_bind, wp_modDec, wp_pure]
    obtain ⟨c, cs, hc, c1, c2, c3, hcs⟩ := P.comps
    have ef : ∀ f, factor d f = 1 := by
      intro f
      unfold factor
      rw [← P.cs, if_pos hg.1]
    rw [ef, ef]
    refine ⟨.none, ⟨P.info, P.inter, P.cs, rfl, rfl, rfl, ?_⟩, Or.inl ⟨rfl, rfl, rfl, ?_⟩⟩
    · dsimp only
      rw [hc]
      exact ⟨_, cs, rfl, fun e => absurd ⟨rfl, rfl⟩ e, rfl, rfl, fun x hx => ⟨fun e => absurd ⟨rfl, rfl⟩ e, (hcs x hx).2⟩⟩
    · rw [P.info, blocks8_wrap, blocks8_wrap, F.width, F.height]
  · rw [wp_pure]
    have ef : factor d fh = fh ∧ factor d fv = fv := by
      unfold factor
      by_cases hg : d.inputColorspace = .grayscale
      · rw [if_pos hg, if_pos hg]
        have : s.dec.interleaved = false := by
          by_contra hi
          exact hno ⟨by rw [P.cs]; exact hg, by simpa using hi⟩
        rw [P.inter, F.inter] at this
        have : fh = 1 ∧ fv = 1 := by simpa using this
        exact ⟨this.1.symm, this.2.symm⟩
      · rw [if_neg hg, if_neg hg]; exact ⟨rfl, rfl⟩
    rw [ef.1, ef.2]
    exact ⟨r, P, hm⟩

/-- The preparations compute the geometry of the image. -/
theorem wpT_baselineSetup_frame {s : H} (F : Frame s.dec w h fh fv) :
    wpT baselineSetup (fun sc s' =>
      Geometry sc w h (factor s.dec fh) (factor s.dec fv) ∧ sc.comps = s'.dec.components ∧
      sc.outCs = s'.dec.options.getOutColorspace ∧ s'.dec.info = s.dec.info) s := by
  unfold baselineSetup
  rw [wpT, wp_bind, wp_getDec, wp_bind]
  refine wpT_ofOut (fun _ _ => ?_) (checkComponentDimensions_ne_diverge _)
  rw [wp_bind]
  refine wpT_ofOut (fun _ _ => ?_) (checkTables_ne_diverge _)
  rw [wp_bind]
  refine wpT_mono (wpT_mcuCounts_frame F) ?_
  rintro m s1 ⟨r, P, hm⟩
  rw [wp_bind]
  refine wpT_mono (wpT_grayReset_frame F P hm) ?_
  rintro m' s2 ⟨r', P', hm'⟩
  rw [wp_bind, wp_getDec, wp_bind]
  refine wpT_idx fun c0 hc0 => ?_
  dsimp only
  refine wp_ite_of (fun _ => trivial) fun hc => ?_
  refine ⟨?_, rfl, rfl, P'.info⟩
  obtain ⟨c, cs, hcc, c1, c2, c3, hcs⟩ := P'.comps
  have hcc0 : c0 = c := by
    rw [hcc] at hc0
    simpa using hc0.symm
  subst hcc0
  have k0 : factor s.dec 1 = 1 := by unfold factor; split <;> rfl
  have k1 : fh = 1 → factor s.dec fh = 1 := by rintro rfl; exact k0
  have k2 : fv = 1 → factor s.dec fv = 1 := by rintro rfl; exact k0
  generalize factor s.dec fh = gh at *
  generalize factor s.dec fv = gv at *
  have hratio := P'.ratio
  constructor
  · show s2.dec.info.width.toNat = w
    rw [P'.info]; exact F.width
  · show (_ ∧ _ ∧ m'.1 = _ ∧ m'.2.1 = _ ∧ m'.2.2 = _ ∧ decide (s2.dec.subSampleRatio = .hv) = _) ∨
      (_ ∧ _ ∧ m'.1 = _ ∧ m'.2.1 = _ ∧ m'.2.2 = _ ∧ decide (s2.dec.subSampleRatio = .hv) = _) ∨
      (_ ∧ _ ∧ m'.1 = _ ∧ m'.2.1 = _ ∧ m'.2.2 = _ ∧ decide (s2.dec.subSampleRatio = .hv) = _) ∨
      (_ ∧ _ ∧ m'.1 = _ ∧ m'.2.1 = _ ∧ m'.2.2 = _ ∧ decide (s2.dec.subSampleRatio = .hv) = _)
    rw [hratio]
    rcases hm' with ⟨a, b, rfl, rfl⟩ | ⟨a, b, rfl, rfl⟩ | ⟨a, b, rfl, rfl⟩ | ⟨a, b, rfl, rfl⟩
    · exact Or.inl ⟨a, b, rfl, rfl, rfl, rfl⟩
    · exact Or.inr (Or.inl ⟨a, b, rfl, rfl, rfl, rfl⟩)
    · exact Or.inr (Or.inr (Or.inl ⟨a, b, rfl, rfl, rfl, rfl⟩))
    · exact Or.inr (Or.inr (Or.inr ⟨a, b, rfl, rfl, rfl, rfl⟩))
  · show m'.1 * 64 * c0.verticalSample * c0.horizontalSample * m'.2.2 / 2 = _
    rw [c2, c3]; rfl
  · rfl
  · show s2.dec.info.width.toNat * _ * 8 * s2.dec.hMax * s2.dec.vMax = _
    rw [P'.info, F.width, P'.hMax, P'.vMax]; rfl
  · refine ⟨(if s2.dec.interleaved then 1 else 0) * 128 * h *
      s2.dec.options.getOutColorspace.numComponents, ?_, fun hn => ?_⟩
    · show (s2.dec.info.width + 8).toNat * (s2.dec.info.height + 8).toNat * _ +
        (if s2.dec.interleaved then 1 else 0) * 128 * s2.dec.info.height.toNat * _ = _
      rw [P'.info, add8_wrap, add8_wrap, F.width, F.height]
      rfl
    · have : s2.dec.interleaved = true := by
        rw [P'.inter, F.inter]
        by_contra hx
        apply hn
        have h11 : fh = 1 ∧ fv = 1 := by simpa using hx
        exact ⟨k1 h11.1, k2 h11.2⟩
      rw [this]
      show 1 * 128 * h * _ = _
      rw [Nat.one_mul]
      rfl
  · exact ⟨c0, cs, hcc, c1, c2, c3, hcs⟩
end

end Zune
