import Verif.Props.Decode
import Verif.Props.NoPanicBytes
/-!
# C76: memory is bounded by the size limits
-/

namespace Zune
open Spec

/-! ### The largest factors -/

/-- What bounds the sizes of the buffers. -/
structure Eight (d : Decoder) : Prop where
  spec : d.specEnd ≤ 63
  h : d.hMax ≤ 8
  v : d.vMax ≤ 8
  input : d.inputColorspace.numComponents ≤ 3
  comps : ∀ c ∈ d.components, c.horizontalSample ≤ 8 ∧ c.verticalSample ≤ 8

theorem maxH_bound {a n : Nat} (h : a ≤ n) : ∀ {cs : List Component},
    (∀ c ∈ cs, c.horizontalSample ≤ n) → maxH a cs ≤ n := by
  intro cs
  induction cs generalizing a with
  | nil => exact fun _ => h
  | cons c cs ih =>
    intro hc
    exact ih (Nat.max_le.2 ⟨h, hc c (by simp)⟩) fun c' h' => hc c' (by simp [h'])

theorem maxV_bound {a n : Nat} (h : a ≤ n) : ∀ {cs : List Component},
    (∀ c ∈ cs, c.verticalSample ≤ n) → maxV a cs ≤ n := by
  intro cs
  induction cs generalizing a with
  | nil => exact fun _ => h
  | cons c cs ih =>
    intro hc
    exact ih (Nat.max_le.2 ⟨h, hc c (by simp)⟩) fun c' h' => hc c' (by simp [h'])

theorem pow_le_eight {x : Nat} (h : ∃ k, k ≤ 3 ∧ x = 2 ^ k) : x ≤ 8 := by
  obtain ⟨k, hk, rfl⟩ := h
  exact Nat.pow_le_pow_right (n := 2) (by omega) hk

theorem eight_new (cpu : Cpu) (o : Options) : Eight (Decoder.newWithOptions cpu o) :=
  ⟨Nat.zero_le _, show 1 ≤ 8 by omega, show 1 ≤ 8 by omega, Nat.le_refl 3, fun _ h => by cases h⟩

theorem Eight.sof {d d' : Decoder} (h : Eight d) {sof : SofMarker}
    {rd rd' : List UInt8} {x y h1 h2 w1 w2 n : UInt8} {cs cs' : List Component}
    (e : SofOk sof d rd d' rd' x y h1 h2 w1 w2 n cs cs') : Eight d' := by
  have hc : ∀ c ∈ cs', c.horizontalSample ≤ 8 ∧ c.verticalSample ≤ 8 := fun c hc =>
    ⟨pow_le_eight (e.componentsOk c hc).h, pow_le_eight (e.componentsOk c hc).v⟩
  rw [e.dec]
  refine ⟨h.spec, maxH_bound h.h fun c m => (hc c m).1, maxV_bound h.v fun c m => (hc c m).2, ?_, hc⟩
  show (if n = 1 then ColorSpace.grayscale else d.inputColorspace).numComponents ≤ 3
  split
  · exact (by decide : 1 ≤ 3)
  · exact h.input

theorem stable_eight : Stable Eight where
  spec h := h.spec
  effect := by
    intro m s s' h e
    unfold Effect at e
    split at e
    · obtain ⟨x, y, h1, h2, w1, w2, n, cs, cs', e⟩ := e
      exact h.sof e
    · obtain ⟨x, y, h1, h2, w1, w2, n, cs, cs', e⟩ := e
      exact Eight.sof (d := { s.dec with isProgressive := true })
        ⟨h.spec, h.h, h.v, h.input, h.comps⟩ e
    · obtain ⟨x, y, n, ss, se, a, ps, e⟩ := e
      have hc : ∀ c' ∈ s'.dec.components, c'.horizontalSample ≤ 8 ∧ c'.verticalSample ≤ 8 := by
        intro c' hc'
        obtain ⟨j, hj⟩ := List.getElem?_of_mem hc'
        obtain ⟨c, h1, h2⟩ := forall₂_get' e.comps.comps hj
        have := h.comps c (List.mem_of_getElem? h1)
        rw [h2]
        exact this
      refine ⟨by rw [e.dec]; exact and63_le _, by rw [e.dec]; exact h.h, by rw [e.dec]; exact h.v,
        by rw [e.dec]; exact h.input, hc⟩
    · exact ⟨by rw [e.dec]; exact h.spec, by rw [e.dec]; exact h.h, by rw [e.dec]; exact h.v,
        by rw [e.dec]; exact h.input, by rw [e.dec]; exact h.comps⟩
  todo _ h := ⟨h.spec, h.h, h.v, h.input, h.comps⟩
  preds := by
    intro d cs hs h
    refine ⟨h.spec, h.h, h.v, h.input, fun c' hc' => ?_⟩
    have key : ∀ {l l' : List Component}, List.Forall₂ SameButPred l l' →
        (∀ c ∈ l, c.horizontalSample ≤ 8 ∧ c.verticalSample ≤ 8) →
        ∀ c ∈ l', c.horizontalSample ≤ 8 ∧ c.verticalSample ≤ 8 := by
      intro l l' hl
      induction hl with
      | nil => exact fun _ _ h => by cases h
      | @cons a b _ _ hab _ ih =>
        intro h0 c hc
        rcases List.mem_cons.1 hc with rfl | hc
        · unfold SameButPred at hab
          rw [hab]
          exact h0 a (by simp)
        · exact ih (fun c m => h0 c (by simp [m])) c hc
    exact key hs h.comps c' hc'

/-- Properties that segments keep hold after the headers. -/
theorem decodeHeaders_keep {P : Decoder → Prop}
    (hP : ∀ {m : Marker} {s s' : H}, P s.dec → Effect m s s' → P s'.dec) {d0 : Decoder}
    {buf : List UInt8} {t : H} (h : decodeHeaders ⟨d0, buf⟩ = (.ok (), t)) (h0 : P d0) : P t.dec := by
  have step : ∀ {last m : UInt8} {count : Nat} {s t : H} {o : Option Nat},
      headerStep last count m s = (.ok o, t) → P s.dec → P t.dec := by
    intro last m count s t o h G
    unfold headerStep at h
    split at h
    · cases hm : Marker.fromU8 m with
      | some mk =>
        rw [hm] at h
        obtain ⟨_, s1, h1, h2⟩ := M.bind_ok_inv h
        have := M.wp_ok (wp_parseMarkerInner_raw (pn := True) (dv := True) _ (by simp) (by simp)) h1
        have e : s1 = t := by
          split at h2 <;> simp at h2 <;> exact h2.2
        subst e
        exact hP G this.2.2
      | none =>
        rw [hm] at h
        obtain ⟨_, s1, h1, h2⟩ := M.bind_ok_inv h
        have := M.wp_ok (wp_skipSegment (pn := True) (dv := True)) h1
        simp at h2
        rw [← h2.2, this.1]
        exact G
    · simp at h
      rw [← h.2]
      exact G
  have loop : ∀ (fuel : Nat) (last : UInt8) (count : Nat) (s t : H),
      headerLoop fuel last count s = (.ok (), t) → P s.dec → P t.dec := by
    intro fuel
    induction fuel with
    | zero =>
      intro _ _ _ _ h _
      simp [headerLoop] at h
    | succ fuel ih =>
      intro last count s t h G
      unfold headerLoop at h
      obtain ⟨m, s1, h1, h2⟩ := M.bind_ok_inv h
      have e1 : s1.dec = s.dec := by
        unfold readByte at h1
        split at h1 <;> simp at h1
        rw [← h1.2]
      obtain ⟨o, s2, h3, h4⟩ := M.bind_ok_inv h2
      have k := step h3 (by rw [e1]; exact G)
      cases o with
      | none =>
        simp at h4
        rw [← h4]
        exact k
      | some c =>
        dsimp only at h4
        obtain ⟨d, s3, h5, h6⟩ := M.bind_ok_inv h4
        have e3 : s3 = s2 := by
          simp [getDec] at h5
          exact h5.2.symm
        subst e3
        split at h6
        · simp at h6
        · exact ih _ _ _ _ h6 k
  unfold decodeHeaders at h
  obtain ⟨v, ⟨d1, r1⟩, h1, h2⟩ := M.bind_ok_inv h
  have e : d1 = d0 := by
    unfold readU16 at h1
    split at h1 <;> simp at h1
    exact h1.2.1.symm
  subst e
  by_cases hm : v ≠ 0xffd8
  · rw [if_pos hm] at h2
    simp at h2
  · rw [if_neg hm] at h2
    exact loop _ _ _ _ _ h2 h0

/-- The size after the headers. -/
theorem limited_headers {cpu : Cpu} {o : Options} {buf rest : List UInt8} {d : Decoder}
    (h : decodeHeaders ⟨Decoder.newWithOptions cpu o, buf⟩ = (.ok (), ⟨d, rest⟩)) :
    d.info.width.toNat ≤ o.maxWidth ∧ d.info.height.toNat ≤ o.maxHeight ∧
      d.info.components ≠ 0 ∧ DecInv (Decoder.newWithOptions cpu o) d := by
  have R := M.wp_ok (wp_decodeHeaders cpu o _) h
  have I : DecInv (Decoder.newWithOptions cpu o) d := R.inv
  rcases I.frame with ⟨e, -⟩ | ⟨⟨-, -, h1, h2⟩, -, h3, -⟩
  · exact absurd (by rw [e]) R.frame
  · have e := I.opts
    rw [e] at h1 h2
    exact ⟨h1, h2, h3, I⟩

/-! ### The output -/

/-- The size is within the configured limits. -/
structure Within (o : Options) (d : Decoder) : Prop where
  spec : d.specEnd ≤ 63
  maxWidth : d.options.maxWidth = o.maxWidth
  maxHeight : d.options.maxHeight = o.maxHeight
  width : d.info.width.toNat ≤ o.maxWidth
  height : d.info.height.toNat ≤ o.maxHeight

theorem Within.sof {o : Options} {d d' : Decoder} (h : Within o d) {sof : SofMarker}
    {rd rd' : List UInt8} {x y h1 h2 w1 w2 n : UInt8} {cs cs' : List Component}
    (e : SofOk sof d rd d' rd' x y h1 h2 w1 w2 n cs cs') : Within o d' := by
  have k1 : (be16 w1 w2).toNat ≤ d.options.maxWidth := e.wmax
  have k2 : (be16 h1 h2).toNat ≤ d.options.maxHeight := e.hmax
  have o1 : (sofDecoder d sof (be16 h1 h2) (be16 w1 w2) n cs').options.maxWidth =
      d.options.maxWidth := by
    show (if _ then _ else d.options).maxWidth = _
    split <;> rfl
  have o2 : (sofDecoder d sof (be16 h1 h2) (be16 w1 w2) n cs').options.maxHeight =
      d.options.maxHeight := by
    show (if _ then _ else d.options).maxHeight = _
    split <;> rfl
  rw [e.dec]
  exact ⟨h.spec, o1.trans h.maxWidth, o2.trans h.maxHeight, h.maxWidth ▸ k1, h.maxHeight ▸ k2⟩

theorem stable_within (o : Options) : Stable (Within o) where
  spec h := h.spec
  effect := by
    intro m s s' h e
    unfold Effect at e
    split at e
    · obtain ⟨x, y, h1, h2, w1, w2, n, cs, cs', e⟩ := e
      exact h.sof e
    · obtain ⟨x, y, h1, h2, w1, w2, n, cs, cs', e⟩ := e
      exact Within.sof (d := { s.dec with isProgressive := true })
        ⟨h.spec, h.maxWidth, h.maxHeight, h.width, h.height⟩ e
    · obtain ⟨x, y, n, ss, se, a, ps, e⟩ := e
      rw [e.dec]
      exact ⟨and63_le _, h.maxWidth, h.maxHeight, h.width, h.height⟩
    · rw [e.dec]
      exact ⟨h.spec, h.maxWidth, h.maxHeight, h.width, h.height⟩
  todo _ h := ⟨h.spec, h.maxWidth, h.maxHeight, h.width, h.height⟩
  preds _ h := ⟨h.spec, h.maxWidth, h.maxHeight, h.width, h.height⟩

theorem Within.setup {o : Options} {d d' : Decoder} (h : Within o d) (r : SetupRel d d') :
    Within o d' := by
  have e := r.rest
  refine ⟨by rw [e]; exact h.spec, ?_, ?_, by rw [e]; exact h.width, by rw [e]; exact h.height⟩
  · rcases r.opts with k | ⟨-, k⟩
    · rw [k]; exact h.maxWidth
    · rw [k]; exact h.maxWidth
  · rcases r.opts with k | ⟨-, k⟩
    · rw [k]; exact h.maxHeight
    · rw [k]; exact h.maxHeight

theorem headers_within {cpu : Cpu} {o : Options} {buf rest : List UInt8} {d : Decoder}
    (h : decodeHeaders ⟨Decoder.newWithOptions cpu o, buf⟩ = (.ok (), ⟨d, rest⟩)) : Within o d :=
  decodeHeaders_keep (fun h e => (stable_within o).effect h e) h
    ⟨Nat.zero_le _, rfl, rfl, Nat.zero_le _, Nat.zero_le _⟩

theorem Within.outBuffer {o : Options} {d : Decoder} (h : Within o d) :
    outBufferLen d ≤ 4 * ((o.maxWidth + 8) * (o.maxHeight + 8) + 128 * o.maxHeight) := by
  obtain ⟨-, -, -, h1, h2⟩ := h
  have n4 : ∀ c : ColorSpace, c.numComponents ≤ 4 := by
    intro c
    cases c <;> decide
  unfold outBufferLen
  have w8 : (d.info.width + 8).toNat ≤ o.maxWidth + 8 := by
    rw [UInt16.toNat_add]
    exact (Nat.mod_le _ _).trans (Nat.add_le_add_right h1 _)
  have h8 : (d.info.height + 8).toNat ≤ o.maxHeight + 8 := by
    rw [UInt16.toNat_add]
    exact (Nat.mod_le _ _).trans (Nat.add_le_add_right h2 _)
  have a := Nat.mul_le_mul (Nat.mul_le_mul w8 h8) (n4 d.options.getOutColorspace)
  have b : (if d.interleaved = true then 1 else 0) * 128 * d.info.height.toNat *
      d.options.getOutColorspace.numComponents ≤ 1 * 128 * o.maxHeight * 4 := by
    refine Nat.mul_le_mul (Nat.mul_le_mul (Nat.mul_le_mul ?_ (Nat.le_refl _)) h2) (n4 _)
    split <;> omega
  dsimp only
  refine (Nat.add_le_add a b).trans ?_
  exact Nat.le_of_eq (by ring)

/-- **C76**, the output of baseline files: the buffer that is allocated for the pixels. The
configured limits are `maxWidth` and `maxHeight`. -/
theorem c76_output (cpu : Cpu) (o : Options) {buf rest : List UInt8} {d : Decoder}
    (h : decodeHeaders ⟨Decoder.newWithOptions cpu o, buf⟩ = (.ok (), ⟨d, rest⟩)) {s : Scan} {t : H}
    (hs : baselineSetup ⟨d, rest⟩ = (.ok s, t)) :
    s.outLen ≤ 4 * ((o.maxWidth + 8) * (o.maxHeight + 8) + 128 * o.maxHeight) := by
  obtain ⟨-, r, -, m, c0, rfl⟩ := M.wp_ok wpT_baselineSetup hs
  exact ((headers_within h).setup r).outBuffer

/-- **C76**, the output of progressive files: it is allocated after all scans, whatever frame headers
there were between them. -/
theorem c76_output_progressive (cpu : Cpu) (o : Options) {buf rest : List UInt8} {d : Decoder}
    (h : decodeHeaders ⟨Decoder.newWithOptions cpu o, buf⟩ = (.ok (), ⟨d, rest⟩))
    {bufs bufs' : List (List I16)} {mw : Nat} {r : Nat × Nat} {h1 h2 : H}
    (hr : runScans bufs ⟨d, rest⟩ = (.ok bufs', h1)) (hf : finishSetup mw h1 = (.ok r, h2)) :
    outBufferLen h2.dec ≤ 4 * ((o.maxWidth + 8) * (o.maxHeight + 8) + 128 * o.maxHeight) := by
  have k1 := M.wp_ok (wpT_runScans (stable_within o) bufs (h := ⟨d, rest⟩) (headers_within h)) hr
  have k2 := M.wp_ok wpT_finishSetup hf
  exact (Within.setup k1 k2.2.1).outBuffer

/-! ### Rows and columns of blocks -/

/-- Groups of `f` blocks, `n` samples. -/
theorem groups_le {n f x : Nat} (hf : f ≤ 8) (hf1 : 1 ≤ f) (hx : x ≤ f) :
    (n + f * 8 - 1) / (f * 8) * 8 * x ≤ n + 63 := by
  have h1 : (n + f * 8 - 1) / (f * 8) * (f * 8) ≤ n + f * 8 - 1 := Nat.div_mul_le_self _ _
  have h2 : (n + f * 8 - 1) / (f * 8) * 8 * x ≤ (n + f * 8 - 1) / (f * 8) * 8 * f :=
    Nat.mul_le_mul_left _ hx
  have h3 : (n + f * 8 - 1) / (f * 8) * 8 * f = (n + f * 8 - 1) / (f * 8) * (f * 8) := by
    rw [Nat.mul_assoc, Nat.mul_comm 8 f]
  omega

theorem collect_forall {α : Type} {P : α → Prop} : ∀ {l : List (Out α)} {v : List α},
    Out.collect l = .ok v → (∀ o ∈ l, ∀ a, o = .ok a → P a) → v.length = l.length ∧ ∀ a ∈ v, P a
  | [], v, h, _ => by
    simp only [Out.collect, Out.ok.injEq] at h
    subst h
    exact ⟨rfl, fun _ h => by cases h⟩
  | o :: os, v, h, hp => by
    unfold Out.collect at h
    obtain ⟨a, h1, h2⟩ := Out.bind_ok h
    obtain ⟨as, h3, h4⟩ := Out.bind_ok h2
    simp only [Out.ok.injEq] at h4
    subst h4
    obtain ⟨k1, k2⟩ := collect_forall h3 fun o' h' => hp o' (by simp [h'])
    refine ⟨by simp [k1], fun x hx => ?_⟩
    rcases List.mem_cons.1 hx with rfl | hx
    · exact hp o (by simp) _ h1
    · exact k2 x hx

theorem sum_le {l : List Nat} {n : Nat} (h : ∀ x ∈ l, x ≤ n) : l.sum ≤ l.length * n := by
  induction l with
  | nil => simp
  | cons a l ih =>
    have := ih fun x hx => h x (by simp [hx])
    have := h a (by simp)
    simp only [List.sum_cons, List.length_cons, Nat.add_mul]
    omega

/-- **C76**, progressive files: all coefficients together that are kept between the scans, for any
bytes. -/
theorem c76_progressive (cpu : Cpu) (o : Options) {buf rest : List UInt8} {d : Decoder}
    (h : decodeHeaders ⟨Decoder.newWithOptions cpu o, buf⟩ = (.ok (), ⟨d, rest⟩)) {mw : Nat}
    {bufs : List (List I16)} (ha : progAlloc d = .ok (mw, bufs)) :
    (bufs.map List.length).sum ≤ 3 * ((o.maxWidth + 63) * (o.maxHeight + 63)) := by
  obtain ⟨h1, h2, h3, I⟩ := limited_headers h
  obtain ⟨G, D⟩ := decodeHeaders_geo h
  have E : Eight d := decodeHeaders_keep (fun h e => stable_eight.effect h e) h (eight_new cpu o)
  obtain ⟨-, -, d1, d2⟩ := D.dims.resolve_left h3
  rcases I.frame with ⟨e, -⟩ | ⟨-, -, -, -, hc⟩
  · exact absurd (by rw [e]) h3
  unfold progAlloc at ha
  obtain ⟨bs, a1, a2⟩ := Out.bind_ok ha
  simp only [Out.ok.injEq, Prod.mk.injEq] at a2
  obtain ⟨-, rfl⟩ := a2
  have hb := collect_forall (P := fun b => b.length ≤ (o.maxWidth + 63) * (o.maxHeight + 63)) a1 (by
    intro x hx a e
    obtain ⟨i, -, rfl⟩ := List.mem_map.1 hx
    rcases hi : d.components[i]? with _ | c
    · rw [hi] at e
      simp at e
    · rw [hi] at e
      simp only [Out.ok.injEq] at e
      subst e
      have hm := List.mem_of_getElem? hi
      rw [List.length_replicate]
      obtain ⟨ch, cv⟩ := hc c hm
      by_cases hn : d.interleaved = true
      · rw [if_pos hn, if_pos hn]
        have k1 := groups_le (n := d.info.width.toNat) E.h G.maxes.1 ch
        have k2 := groups_le (n := d.info.height.toNat) E.v G.maxes.2 cv
        rw [← d1] at k1
        rw [← d2] at k2
        have := Nat.mul_le_mul (k1.trans (Nat.add_le_add_right h1 63))
          (k2.trans (Nat.add_le_add_right h2 63))
        refine Nat.le_trans (Nat.le_of_eq ?_) this
        ring
      · rw [if_neg hn, if_neg hn]
        have hx : d.hMax = 1 ∧ d.vMax = 1 := by
          by_contra hne
          exact hn (D.inter (by omega))
        have e1 : c.horizontalSample ≤ 1 := hx.1 ▸ ch
        have e2 : c.verticalSample ≤ 1 := hx.2 ▸ cv
        have k1 : (d.info.width.toNat + 7) / 8 * 8 ≤ o.maxWidth + 63 := by omega
        have k2 : (d.info.height.toNat + 7) / 8 * 8 ≤ o.maxHeight + 63 := by omega
        have := Nat.mul_le_mul (Nat.mul_le_mul k1 k2) (Nat.mul_le_mul e1 e2)
        refine Nat.le_trans (Nat.le_of_eq ?_) (this.trans (Nat.le_of_eq (by ring)))
        ring)
  rw [List.length_map, List.length_range] at hb
  rw [List.map_append, List.sum_append]
  have z : ((List.replicate (3 - bs.length) ([] : List I16)).map List.length).sum = 0 := by
    simp
  rw [z, Nat.add_zero]
  refine (sum_le (n := (o.maxWidth + 63) * (o.maxHeight + 63)) ?_).trans ?_
  · intro x hx
    obtain ⟨b, m, rfl⟩ := List.mem_map.1 hx
    exact hb.2 b m
  · rw [List.length_map, hb.1]
    exact Nat.mul_le_mul_right _ E.input

/-- The headers of a progressive image of 17 columns and 9 rows with subsampled chroma: two by one
MCUs of 16 by 16 samples. -/
def smallProgressive : List UInt8 :=
  [0xFF, 0xD8] ++ [0xFF, 0xDB, 0x00, 0x43, 0x00] ++ List.replicate 64 1 ++
  [0xFF, 0xC2, 0x00, 0x11, 8, 0, 9, 0, 17, 3, 1, 0x22, 0, 2, 0x11, 0, 3, 0x11, 0] ++
  [0xFF, 0xDA, 0x00, 0x0C, 3, 1, 0x00, 2, 0x00, 3, 0x00, 0, 0, 0]

example :
    (decodeHeaders ⟨Decoder.newWithOptions ⟨false, false⟩ .new, smallProgressive⟩).1 = .ok () ∧
    (progAlloc (decodeHeaders ⟨Decoder.newWithOptions ⟨false, false⟩ .new, smallProgressive⟩).2.dec).map
      (fun x => x.2.map List.length) = .ok [32 * 16, 16 * 8, 16 * 8] := by
  decide +kernel

/-! ### Baseline files -/

theorem blocks8_bound (w : UInt16) : blocks8 w * 8 ≤ w.toNat + 7 := by
  rw [blocks8_wrap]
  omega

theorem ofOut_ok_inv {σ α : Type} {o : Out α} {a : α} {s t : σ} (h : M.ofOut o s = (.ok a, t)) :
    s = t := by
  simp only [M.ofOut, Prod.mk.injEq] at h
  exact h.2

theorem idx_ok_inv {σ α : Type} {l : List α} {i : Nat} {a : α} {s t : σ}
    (h : M.idx l i s = (.ok a, t)) : s = t := by
  unfold M.idx at h
  split at h <;> simp_all

/-- The decoder and the counts before and after the baseline set-up. -/
structure Counted (w h : Nat) (d : Decoder) (m : Nat × Nat × Nat) : Prop where
  eight : ∀ c ∈ d.components, c.horizontalSample ≤ 8 ∧ c.verticalSample ≤ 8
  spec : d.specEnd ≤ 63
  hmax : d.hMax ≤ 8
  vmax : d.vMax ≤ 8
  input : d.inputColorspace.numComponents ≤ 3
  counts : ∃ a b, 1 ≤ a ∧ 1 ≤ b ∧
    m.1 * 64 * b * a * m.2.2 * m.2.1 ≤ (w + 15) * (h + 15) ∧
    ∀ pos c, d.components[pos]? = some c → min (d.options.getOutColorspace.numComponents - 1) pos = pos →
      c.horizontalSample ≤ a ∧ c.verticalSample ≤ b

theorem mcuCounts_counted {d : Decoder} {rest : List UInt8} {m : Nat × Nat × Nat} {t : H}
    (E : Eight d) (G : Geo d) (D : Dims d) (h3 : d.info.components ≠ 0)
    (hf : ∀ c ∈ d.components, c.horizontalSample ≤ d.hMax ∧ c.verticalSample ≤ d.vMax)
    (h : mcuCounts ⟨d, rest⟩ = (.ok m, t)) :
    Counted d.info.width.toNat d.info.height.toNat t.dec m ∧ t.dec.info = d.info := by
  obtain ⟨-, -, d1, d2⟩ := D.dims.resolve_left h3
  unfold mcuCounts at h
  obtain ⟨d0, s0, e0, h⟩ := M.bind_ok_inv h
  simp only [getDec, Prod.mk.injEq, Out.ok.injEq] at e0
  obtain ⟨rfl, rfl⟩ := e0
  by_cases hn : d.interleaved = true
  · rw [if_pos hn] at h
    obtain ⟨_, s1, e1, h⟩ := M.bind_ok_inv h
    obtain ⟨d0, s0, e0, h⟩ := M.bind_ok_inv h
    simp only [getDec, Prod.mk.injEq, Out.ok.injEq] at e0
    obtain ⟨rfl, rfl⟩ := e0
    unfold liftDec at e1
    rcases hu : Decoder.setUpsampling d with ⟨r, d'⟩
    rw [hu] at e1
    simp only [Prod.mk.injEq] at e1
    obtain ⟨rfl, rfl⟩ := e1
    dsimp only at h
    rcases setUpsampling_ok hu with ⟨x, y, -⟩ | ⟨r, u, c, cs, hs, hc, rfl⟩
    · rcases G.inter hn with z | z <;> contradiction
    have hmem : ∀ x ∈ c :: cs.map (fun x => { x with upSampler := u }), ∃ y ∈ d.components,
        x.horizontalSample = y.horizontalSample ∧ x.verticalSample = y.verticalSample := by
      intro x hx
      rw [hc]
      rcases List.mem_cons.1 hx with rfl | hx
      · exact ⟨x, by simp, rfl, rfl⟩
      · obtain ⟨y, hy, rfl⟩ := List.mem_map.1 hx
        exact ⟨y, by simp [hy], rfl, rfl⟩
    have h8 : ∀ x ∈ c :: cs.map (fun x => { x with upSampler := u }),
        x.horizontalSample ≤ 8 ∧ x.verticalSample ≤ 8 := by
      intro x hx
      obtain ⟨y, hy, a, b⟩ := hmem x hx
      rw [a, b]
      exact E.comps y hy
    have hM : ∀ x ∈ c :: cs.map (fun x => { x with upSampler := u }),
        x.horizontalSample ≤ d.hMax ∧ x.verticalSample ≤ d.vMax := by
      intro x hx
      obtain ⟨y, hy, a, b⟩ := hmem x hx
      rw [a, b]
      exact hf y hy
    have key : ∀ m' : Nat × Nat × Nat, m'.1 * 64 * d.vMax * d.hMax * m'.2.2 * m'.2.1 ≤
          (d.mcuX * (d.hMax * 8)) * (d.mcuY * (d.vMax * 8)) → d.hMax ≤ 2 → d.vMax ≤ 2 →
        Counted d.info.width.toNat d.info.height.toNat
          { d with subSampleRatio := r, components := c :: cs.map (fun x => { x with upSampler := u }) }
          m' := by
      intro m' hm l1 l2
      refine ⟨h8, E.spec, E.h, E.v, E.input, d.hMax, d.vMax, G.maxes.1, G.maxes.2, hm.trans ?_,
        fun pos x hx _ => hM x (List.mem_of_getElem? hx)⟩
      have k1 : d.mcuX * (d.hMax * 8) ≤ d.info.width.toNat + 15 := by
        rw [d1]
        have := Nat.div_mul_le_self (d.info.width.toNat + d.hMax * 8 - 1) (d.hMax * 8)
        omega
      have k2 : d.mcuY * (d.vMax * 8) ≤ d.info.height.toNat + 15 := by
        rw [d2]
        have := Nat.div_mul_le_self (d.info.height.toNat + d.vMax * 8 - 1) (d.vMax * 8)
        omega
      exact Nat.mul_le_mul k1 k2
    have half : d.mcuY / 2 * 2 ≤ d.mcuY := Nat.div_mul_le_self _ _
    rcases hs with ⟨x, y, rfl, -⟩ | ⟨x, y, rfl, -⟩ | ⟨x, y, rfl, -⟩
    · rw [if_pos rfl] at h
      change (Out.ok _, _) = (Out.ok m, t) at h
      simp only [Prod.mk.injEq, Out.ok.injEq] at h
      obtain ⟨rfl, rfl⟩ := h
      refine ⟨key _ ?_ (by omega) (by omega), rfl⟩
      rw [x, y]
      dsimp only
      calc _ = d.mcuX * 128 * (d.mcuY / 2 * 2) := by ring
        _ ≤ d.mcuX * 128 * d.mcuY := Nat.mul_le_mul_left _ half
        _ = _ := by ring
    · rw [if_neg (fun e => nomatch e), if_neg (fun e => nomatch e)] at h
      change (Out.ok _, _) = (Out.ok m, t) at h
      simp only [Prod.mk.injEq, Out.ok.injEq] at h
      obtain ⟨rfl, rfl⟩ := h
      refine ⟨key _ ?_ (by omega) (by omega), rfl⟩
      rw [x, y]
      dsimp only
      exact Nat.le_of_eq (by ring)
    · rw [if_neg (fun e => nomatch e), if_pos rfl] at h
      change (Out.ok _, _) = (Out.ok m, t) at h
      simp only [Prod.mk.injEq, Out.ok.injEq] at h
      obtain ⟨rfl, rfl⟩ := h
      refine ⟨key _ ?_ (by omega) (by omega), rfl⟩
      rw [x, y]
      dsimp only
      calc _ = d.mcuX * 256 * (d.mcuY / 2 * 2) := by ring
        _ ≤ d.mcuX * 256 * d.mcuY := Nat.mul_le_mul_left _ half
        _ = _ := by ring
  · rw [if_neg hn] at h
    change (Out.ok _, _) = (Out.ok m, t) at h
    simp only [Prod.mk.injEq, Out.ok.injEq] at h
    obtain ⟨rfl, rfl⟩ := h
    have hx : d.hMax = 1 ∧ d.vMax = 1 := by
      by_contra hne
      exact hn (D.inter (by omega))
    refine ⟨⟨E.comps, E.spec, E.h, E.v, E.input, 1, 1, Nat.le_refl _, Nat.le_refl _, ?_,
      fun pos x hx' _ => ?_⟩, rfl⟩
    · have k1 := blocks8_bound d.info.width
      have k2 := blocks8_bound d.info.height
      dsimp only
      calc _ = blocks8 d.info.width * 8 * (blocks8 d.info.height * 8) := by ring
        _ ≤ _ := Nat.mul_le_mul (by omega) (by omega)
    · have := hf x (List.mem_of_getElem? hx')
      rw [hx.1, hx.2] at this
      exact this

theorem grayReset_counted {w h : UInt16} {s t : H} {m m' : Nat × Nat × Nat}
    (C : Counted w.toNat h.toNat s.dec m) (hw : s.dec.info.width = w) (hh : s.dec.info.height = h)
    (e : grayReset m s = (.ok m', t)) : Counted w.toNat h.toNat t.dec m' := by
  unfold grayReset at e
  obtain ⟨d0, s0, e0, e⟩ := M.bind_ok_inv e
  simp only [getDec, Prod.mk.injEq, Out.ok.injEq] at e0
  obtain ⟨rfl, rfl⟩ := e0
  split at e
  · split at e
    · simp at e
    · dsimp only at e
      split at e
      · simp at e
      · obtain ⟨_, s1, e1, e⟩ := M.bind_ok_inv e
        simp only [modDec, Prod.mk.injEq, true_and] at e1
        subst e1
        change (Out.ok _, _) = (Out.ok m', t) at e
        simp only [Prod.mk.injEq, Out.ok.injEq] at e
        obtain ⟨rfl, rfl⟩ := e
        refine ⟨?_, C.spec, show 1 ≤ 8 by omega, show 1 ≤ 8 by omega, C.input, 1, 1, Nat.le_refl _, Nat.le_refl _, ?_, ?_⟩
        · intro c hc
          obtain ⟨j, hj⟩ := List.getElem?_of_mem hc
          dsimp only at hj
          rw [List.getElem?_modify] at hj
          rcases hx : s.dec.components[j]? with _ | x
          · rw [hx] at hj
            cases hj
          · rw [hx] at hj
            have hm := C.eight x (List.mem_of_getElem? hx)
            simp only [Option.map_eq_map, Option.map_some, Option.some.injEq] at hj
            split at hj
            · rw [← hj]
              exact ⟨show 1 ≤ 8 by omega, show 1 ≤ 8 by omega⟩
            · rw [← hj]
              exact hm
        · rw [hw, hh]
          have k1 := blocks8_bound w
          have k2 := blocks8_bound h
          dsimp only
          calc _ = blocks8 w * 8 * (blocks8 h * 8) := by ring
            _ ≤ _ := Nat.mul_le_mul (by omega) (by omega)
        · intro pos c hc hp
          have z : pos = 0 := by
            have e1 : (s.dec.options.setOutColorspace .grayscale).getOutColorspace.numComponents - 1
              = 0 := rfl
            dsimp only at hp
            rw [e1] at hp
            omega
          subst z
          dsimp only at hc
          rw [List.getElem?_modify] at hc
          rcases hx : s.dec.components[0]? with _ | x
          · rw [hx] at hc
            cases hc
          · rw [hx] at hc
            simp only [Option.map_eq_map, Option.map_some, Option.some.injEq, if_pos] at hc
            rw [← hc]
            exact ⟨Nat.le_refl _, Nat.le_refl _⟩
  · change (Out.ok _, _) = (Out.ok m', t) at e
    simp only [Prod.mk.injEq, Out.ok.injEq] at e
    obtain ⟨rfl, rfl⟩ := e
    exact C

theorem setup_counted {cpu : Cpu} {o : Options} {buf rest : List UInt8} {d : Decoder}
    (h : decodeHeaders ⟨Decoder.newWithOptions cpu o, buf⟩ = (.ok (), ⟨d, rest⟩)) {s : Scan} {t : H}
    (hs : baselineSetup ⟨d, rest⟩ = (.ok s, t)) :
    Counted o.maxWidth o.maxHeight t.dec (s.mcuWidth, s.mcuHeight, s.bias) := by
  obtain ⟨h1, h2, h3, I⟩ := limited_headers h
  obtain ⟨G, D⟩ := decodeHeaders_geo h
  have E : Eight d := decodeHeaders_keep (fun h e => stable_eight.effect h e) h (eight_new cpu o)
  rcases I.frame with ⟨e, -⟩ | ⟨-, -, -, -, hc⟩
  · exact absurd (by rw [e]) h3
  unfold baselineSetup at hs
  obtain ⟨d0, s0, e0, hs⟩ := M.bind_ok_inv hs
  simp only [getDec, Prod.mk.injEq, Out.ok.injEq] at e0
  obtain ⟨rfl, rfl⟩ := e0
  obtain ⟨_, s1, e1, hs⟩ := M.bind_ok_inv hs
  obtain ⟨_, s2, e2, hs⟩ := M.bind_ok_inv hs
  have f1 := ofOut_ok_inv e1
  have f2 := ofOut_ok_inv e2
  subst f2 f1
  obtain ⟨m, s3, e3, hs⟩ := M.bind_ok_inv hs
  obtain ⟨m', s4, e4, hs⟩ := M.bind_ok_inv hs
  obtain ⟨C, hi⟩ := mcuCounts_counted E G D h3 hc e3
  have C' := grayReset_counted C (by rw [hi]) (by rw [hi]) e4
  obtain ⟨d0, s0, e0, hs⟩ := M.bind_ok_inv hs
  simp only [getDec, Prod.mk.injEq, Out.ok.injEq] at e0
  obtain ⟨rfl, rfl⟩ := e0
  obtain ⟨c0, s5, e5, hs⟩ := M.bind_ok_inv hs
  have f5 := idx_ok_inv e5
  subst f5
  dsimp only at hs
  split at hs
  · simp at hs
  · change (Out.ok _, _) = (Out.ok s, t) at hs
    simp only [Prod.mk.injEq, Out.ok.injEq] at hs
    obtain ⟨rfl, rfl⟩ := hs
    obtain ⟨a, b, p, q, r, u⟩ := C'.counts
    exact ⟨C'.eight, C'.spec, C'.hmax, C'.vmax, C'.input, a, b, p, q,
      r.trans (Nat.mul_le_mul (Nat.add_le_add_right h1 _) (Nat.add_le_add_right h2 _)), u⟩

theorem allocTemp_bound {s : Scan} {d : Decoder} {bufs : List (List I16)} {n : Nat}
    (h : allocTemp s d = .ok bufs)
    (hb : ∀ pos c, d.components[pos]? = some c →
      min (d.options.getOutColorspace.numComponents - 1) pos = pos →
      s.mcuHeight * (s.mcuWidth * 64 * c.verticalSample * c.horizontalSample * s.bias) ≤ n) :
    s.mcuHeight * (bufs.map List.length).sum ≤ 3 * n := by
  unfold allocTemp at h
  dsimp only at h
  split at h
  · cases h
  · simp only [Out.ok.injEq] at h
    subst h
    have three : ∀ f : Nat → List I16, (∀ pos, s.mcuHeight * (f pos).length ≤ n) →
        s.mcuHeight * (((List.range 3).map f).map List.length).sum ≤ 3 * n := by
      intro f hf
      have := hf 0
      have := hf 1
      have := hf 2
      simp only [List.range, List.range.loop, List.map_cons, List.map_nil, List.sum_cons,
        List.sum_nil, Nat.mul_add]
      omega
    refine three _ fun pos => ?_
    rcases hx : d.components[pos]? with _ | c
    · exact Nat.zero_le _
    · dsimp only
      split
      · rw [List.length_replicate]
        exact hb pos c hx ‹_›
      · exact Nat.zero_le _

/-- **C76**, baseline files: the coefficients of all strips of the image together, at the size of
the first strip. -/
theorem c76_baseline (cpu : Cpu) (o : Options) {buf rest : List UInt8} {d : Decoder}
    (h : decodeHeaders ⟨Decoder.newWithOptions cpu o, buf⟩ = (.ok (), ⟨d, rest⟩)) {s : Scan} {t : H}
    (hs : baselineSetup ⟨d, rest⟩ = (.ok s, t)) {bufs : List (List I16)}
    (ha : allocTemp s t.dec = .ok bufs) :
    s.mcuHeight * (bufs.map List.length).sum ≤ 3 * ((o.maxWidth + 15) * (o.maxHeight + 15)) := by
  obtain ⟨a, b, -, -, hn, hc⟩ := (setup_counted h hs).counts
  refine allocTemp_bound ha fun pos c hx hp => ?_
  obtain ⟨k1, k2⟩ := hc pos c hx hp
  refine Nat.le_trans ?_ hn
  rw [Nat.mul_comm]
  dsimp only
  exact Nat.mul_le_mul_right _ (Nat.mul_le_mul_right _
    (Nat.mul_le_mul (Nat.mul_le_mul_left _ k2) k1))

/-- **C76**, baseline files: the same for every strip, whatever frame headers the scan data have
brought so far. -/
theorem c76_strips (cpu : Cpu) (o : Options) {buf rest : List UInt8} {d : Decoder}
    (h : decodeHeaders ⟨Decoder.newWithOptions cpu o, buf⟩ = (.ok (), ⟨d, rest⟩)) {s : Scan} {t : H}
    (hs : baselineSetup ⟨d, rest⟩ = (.ok s, t)) {k : Nat} {t' : T}
    (hk : strips s k { dec := t.dec, io := { bs := BitStream.new, rd := t.rd } } = (.ok (), t'))
    {bufs : List (List I16)} (ha : allocTemp s t'.dec = .ok bufs) :
    s.mcuHeight * (bufs.map List.length).sum ≤
      3 * (64 * ((o.maxWidth + 15) * (o.maxHeight + 15))) := by
  have C := setup_counted h hs
  have E : Eight t.dec := ⟨C.spec, C.hmax, C.vmax, C.input, C.eight⟩
  have E' := (M.wp_ok (wpT_strips stable_eight s k (rd0 := t.rd)
    ⟨E, List.suffix_refl _, Nat.zero_le _⟩) hk).1.dec
  obtain ⟨a, b, ha1, hb1, hn, -⟩ := C.counts
  dsimp only at hn
  refine allocTemp_bound ha fun pos c hx hp => ?_
  obtain ⟨k1, k2⟩ := E'.comps c (List.mem_of_getElem? hx)
  refine Nat.le_trans ?_ (Nat.mul_le_mul_left 64 hn)
  have f1 : s.mcuWidth * 64 * c.verticalSample * c.horizontalSample ≤ s.mcuWidth * 64 * 8 * 8 :=
    Nat.mul_le_mul (Nat.mul_le_mul_left _ k2) k1
  have f2 : s.mcuWidth * 64 ≤ s.mcuWidth * 64 * b * a := by
    rw [Nat.mul_assoc]
    exact Nat.le_mul_of_pos_right _ (Nat.mul_pos hb1 ha1)
  calc _ ≤ s.mcuHeight * (s.mcuWidth * 64 * 8 * 8 * s.bias) :=
        Nat.mul_le_mul_left _ (Nat.mul_le_mul_right _ f1)
    _ = 64 * (s.mcuWidth * 64 * s.bias * s.mcuHeight) := by ring
    _ ≤ _ := Nat.mul_le_mul_left _ (Nat.mul_le_mul_right _ (Nat.mul_le_mul_right _ f2))

/-- Limits of 8 columns and 16 rows. -/
def smallLimits : Options := { Options.new with maxWidth := 8, maxHeight := 16 }

/-- A grayscale image of 8 columns and 16 rows; in its scan data, after the first block, is a frame
header with sampling factors 8 and 8. -/
def growingFile : List UInt8 :=
  [0xFF, 0xD8] ++
  [0xFF, 0xDB, 0x00, 0x43, 0x00] ++ List.replicate 64 1 ++
  [0xFF, 0xC0, 0x00, 0x0B, 8, 0, 16, 0, 8, 1, 1, 0x11, 0] ++
  [0xFF, 0xDB, 0x00, 0x43, 0x00] ++ List.replicate 64 1 ++
  ([0xFF, 0xC4, 0x00, 0x14, 0x00, 1] ++ List.replicate 15 0 ++ [0]) ++
  ([0xFF, 0xC4, 0x00, 0x14, 0x10, 1] ++ List.replicate 15 0 ++ [0]) ++
  [0xFF, 0xDA, 0x00, 0x08, 1, 1, 0x00, 0, 63, 0] ++ [0x3F] ++
  [0xFF, 0xC0, 0x00, 0x0B, 8, 0, 16, 0, 8, 1, 1, 0x88, 0] ++ List.replicate 16 0 ++ [0xFF, 0xD9]

/-- The state after the headers of the file. -/
def growing : H := (decodeHeaders ⟨Decoder.newWithOptions ⟨false, false⟩ smallLimits, growingFile⟩).2

theorem growing_runs : (match baselineSetup growing with
    | (.ok s, t) =>
      match strips s 1 { dec := t.dec, io := { bs := BitStream.new, rd := t.rd } } with
      | (.ok (), t') =>
        decide ((allocTemp s t.dec).map (List.map List.length) = .ok [64, 0, 0] ∧
          (allocTemp s t'.dec).map (List.map List.length) = .ok [4096, 0, 0] ∧ s.mcuHeight = 2)
      | _ => false
    | _ => false) = true := by
  decide +kernel

/-- The hypotheses of the theorems hold for this file, and the bound of `c76_baseline` does not hold
for its second strip: the factor 64 of `c76_strips` is needed. -/
theorem c76_growth :
    (decodeHeaders ⟨Decoder.newWithOptions ⟨false, false⟩ smallLimits, growingFile⟩).1 = .ok () ∧
    outBufferLen growing.dec = 16 * 24 ∧
    ∃ s t t', baselineSetup growing = (.ok s, t) ∧
      (allocTemp s t.dec).map (List.map List.length) = .ok [64, 0, 0] ∧
      strips s 1 { dec := t.dec, io := { bs := BitStream.new, rd := t.rd } } = (.ok (), t') ∧
      (allocTemp s t'.dec).map (List.map List.length) = .ok [4096, 0, 0] ∧
      s.mcuHeight * 4096 = 8192 ∧ 3 * ((8 + 15) * (16 + 15)) = 2139 := by
  refine ⟨by decide +kernel, by decide +kernel, ?_⟩
  have h := growing_runs
  rcases hb : baselineSetup growing with ⟨s | _ | _ | _, t⟩ <;> rw [hb] at h
  · dsimp only at h
    rcases hs : strips s 1 { dec := t.dec, io := { bs := BitStream.new, rd := t.rd } } with
      ⟨⟨⟩ | _ | _ | _, t'⟩ <;> rw [hs] at h
    · obtain ⟨h1, h2, h3⟩ := of_decide_eq_true h
      exact ⟨s, t, t', rfl, h1, hs, h2, by rw [h3], rfl⟩
    all_goals cases h
  all_goals cases h

end Zune
