import Verif.Lemmas.Again
import Verif.Props.NoPanic
/-!
# C65 for arbitrary bytes
-/

namespace Zune
open M (wp wp_bind wp_mono)
open Spec

/-- What the frame headers read so far make of a new decoder. -/
structure Geo (d : Decoder) : Prop where
  ratio : d.subSampleRatio = .none
  inter : d.interleaved = true → d.hMax ≠ 1 ∨ d.vMax ≠ 1
  maxes : 1 ≤ d.hMax ∧ 1 ≤ d.vMax
  one : d.components.length = 1 →
    d.inputColorspace = .grayscale ∧ d.options.getOutColorspace = .grayscale
  pos : d.components ≠ [] → 0 < d.info.width.toNat ∧ 0 < d.info.height.toNat
  factors : ∀ c ∈ d.components, 1 ≤ c.horizontalSample ∧ 1 ≤ c.verticalSample
  strides : ∀ c cs, d.components = c :: cs → c.horizontalSample = d.hMax →
    ∀ x ∈ d.components, x.widthStride = x.horizontalSample *
      ((d.info.width.toNat + d.hMax * 8 - 1) / (d.hMax * 8) * 8)

theorem geo_new (cpu : Cpu) (o : Options) : Geo (Decoder.newWithOptions cpu o) :=
  ⟨rfl, fun h => (by cases h), ⟨Nat.le_refl _, Nat.le_refl _⟩, fun h => (by cases h),
    fun h => absurd rfl h, fun _ h => (by cases h), fun _ _ h => (by cases h)⟩

theorem setup_strides {d : Decoder} {a b : Nat} {l l' : List Component} (hs : Setup d a b l l') :
    (∀ c ∈ l, FreshComponent c) → (∀ x ∈ l', x.horizontalSample ≤ a) →
    ∀ x ∈ l', x.widthStride = x.horizontalSample * ((d.info.width.toNat + a * 8 - 1) / (a * 8) * 8) := by
  induction hs with
  | nil => simp
  | @cons hh v q qs q' qs' qt' _ he' _ ih =>
    intro hf h1' x hx
    have hq1 : q.horizontalSample ≤ hh := by
      have := h1' q' (by simp)
      rw [he'] at this
      exact this
    have hm : max hh q.horizontalSample = hh := by omega
    rcases List.mem_cons.1 hx with rfl | hx
    · rw [he']
      dsimp only
      rw [(hf q (by simp)).2.1, hm]
    · rw [hm] at ih
      exact ih (fun c hc => hf c (by simp [hc])) (fun x hx => h1' x (by simp [hx])) x hx

theorem geo_sof {sof : SofMarker} {d d' : Decoder} {rd rd' : List UInt8}
    {x y h1 h2 w1 w2 n : UInt8} {cs cs' : List Component} (G : Geo d)
    (h : SofOk sof d rd d' rd' x y h1 h2 w1 w2 n cs cs') : Geo d' := by
  have hd := h.dec
  have hw : ∀ v : UInt16, v ≠ 0 → 0 < v.toNat := by
    intro v hv
    rcases Nat.eq_zero_or_pos v.toNat with h0 | h0
    · exact absurd (UInt16.toNat_inj.1 (by simpa using h0)) hv
    · exact h0
  have hcs : d'.components = cs' := by rw [hd]; rfl
  have hH : d'.hMax = maxH d.hMax cs' := by rw [hd]; rfl
  have hV : d'.vMax = maxV d.vMax cs' := by rw [hd]; rfl
  have hi : d'.info.width = be16 w1 w2 := by rw [hd]; rfl
  refine ⟨?_, ?_, ?_, ?_, ?_, ?_, ?_⟩
  · rw [hd]; exact G.ratio
  · rw [hH, hV]
    rw [hd]
    show (if maxH d.hMax cs' ≠ 1 ∨ maxV d.vMax cs' ≠ 1 then true else d.interleaved) = true → _
    intro hi
    by_cases hc : maxH d.hMax cs' ≠ 1 ∨ maxV d.vMax cs' ≠ 1
    · exact hc
    · rw [if_neg hc] at hi
      have := G.inter hi
      have a1 := le_maxH d.hMax cs'
      have a2 := le_maxV d.vMax cs'
      have := G.maxes
      omega
  · rw [hH, hV]
    exact ⟨Nat.le_trans G.maxes.1 (le_maxH _ _), Nat.le_trans G.maxes.2 (le_maxV _ _)⟩
  · intro hl
    rw [hcs, h.count] at hl
    have hn : n = 1 := UInt8.toNat_inj.1 hl
    rw [hd]
    show (if n = 1 then _ else _) = _ ∧ Options.getOutColorspace (if n = 1 then _ else _) = _
    rw [if_pos hn, if_pos hn]
    exact ⟨rfl, rfl⟩
  · intro _
    rw [hd]
    exact ⟨hw _ h.wpos, hw _ h.hpos⟩
  · intro c hc
    rw [hcs] at hc
    obtain ⟨c0, h0, e, -⟩ := h.setup.mem hc
    obtain ⟨k, -, hk⟩ := (h.fresh c0 h0).1.h
    obtain ⟨l, -, hl⟩ := (h.fresh c0 h0).1.v
    rw [e]
    exact ⟨hk ▸ Nat.one_le_two_pow, hl ▸ Nat.one_le_two_pow⟩
  · intro c rest hc hm x hx
    have hle : ∀ x ∈ cs', x.horizontalSample ≤ d'.hMax := by
      intro x hx
      rw [hH]
      exact mem_le_maxH hx
    rw [hcs] at hc hx
    subst hc
    have hset := h.setup
    cases hset with
    | @cons _ _ c0 cs0 _ _ qt hq he hrest =>
      have e1 : c0.horizontalSample = d'.hMax := by
        rw [he] at hm
        exact hm
      have e2 : max d.hMax c0.horizontalSample = d'.hMax := by
        rw [e1]
        have := le_maxH d.hMax (c :: rest)
        rw [← hH] at this
        exact Nat.max_eq_right this
      rcases List.mem_cons.1 hx with rfl | hx
      · rw [hm, he, hi]
        dsimp only
        rw [(h.fresh c0 (by simp)).2.1, e2, e1]
        rfl
      · rw [e2] at hrest
        have := setup_strides hrest (fun c hc => h.fresh c (by simp [hc])) (fun x hx => hle x (by simp [hx])) x hx
        rw [this, hi]
        rfl

theorem geo_same {d d' : Decoder} (G : Geo d) (e : d'.subSampleRatio = d.subSampleRatio ∧
    d'.interleaved = d.interleaved ∧ d'.hMax = d.hMax ∧ d'.vMax = d.vMax ∧ d'.info = d.info ∧
    d'.inputColorspace = d.inputColorspace ∧ d'.options = d.options)
    (hc : List.Forall₂ SameButTables d.components d'.components) : Geo d' := by
  obtain ⟨e1, e2, e3, e4, e5, e6, e7⟩ := e
  have hh : ∀ {a b : Component}, SameButTables a b → b.horizontalSample = a.horizontalSample ∧
      b.verticalSample = a.verticalSample ∧ b.widthStride = a.widthStride := by
    intro a b h
    rw [h]
    exact ⟨rfl, rfl, rfl⟩
  have hm : ∀ x ∈ d'.components, ∃ y ∈ d.components, SameButTables y x := by
    intro x hx
    obtain ⟨y, hy, h⟩ := forall₂_mem hc.flip x hx
    exact ⟨y, hy, h⟩
  refine ⟨e1 ▸ G.ratio, ?_, ?_, ?_, ?_, ?_, ?_⟩
  · rw [e2, e3, e4]; exact G.inter
  · rw [e3, e4]; exact G.maxes
  · rw [← hc.length_eq, e6, e7]; exact G.one
  · intro h
    rw [e5]
    refine G.pos fun h' => h ?_
    rw [h'] at hc
    exact List.eq_nil_of_length_eq_zero hc.length_eq.symm
  · intro x hx
    obtain ⟨y, hy, h⟩ := hm x hx
    rw [(hh h).1, (hh h).2.1]
    exact G.factors y hy
  · intro c cs e hm0 x hx
    obtain ⟨y, hy, h⟩ := hm x hx
    rw [e] at hc
    generalize hl : d.components = l at hc
    cases hc with
    | @cons c' _ cs' _ g1 g2 =>
      rw [(hh h).1, (hh h).2.2, e3, e5]
      refine G.strides c' cs' hl ?_ y hy
      rw [← (hh g1).1, hm0, e3]

theorem effect_geo {m : Marker} {s s' : H} (h : Effect m s s') (G : Geo s.dec) : Geo s'.dec := by
  unfold Effect at h
  split at h
  · obtain ⟨x, y, h1, h2, w1, w2, n, cs, cs', h⟩ := h
    exact geo_sof G h
  · obtain ⟨x, y, h1, h2, w1, w2, n, cs, cs', h⟩ := h
    exact geo_sof (d := { s.dec with isProgressive := true })
      ⟨G.ratio, G.inter, G.maxes, G.one, G.pos, G.factors, G.strides⟩ h
  · obtain ⟨x, y, n, ss, se, a, ps, h⟩ := h
    refine geo_same G ?_ h.comps.comps
    rw [h.dec]
    exact ⟨rfl, rfl, rfl, rfl, rfl, rfl, rfl⟩
  · refine geo_same G ?_ ?_
    · rw [h.dec]
      exact ⟨rfl, rfl, rfl, rfl, rfl, rfl, rfl⟩
    · rw [h.dec]
      exact forall₂_same_refl _

theorem headerStep_geo {last m : UInt8} {count : Nat} {s t : H} {o : Option Nat}
    (h : headerStep last count m s = (.ok o, t)) (G : Geo s.dec) : Geo t.dec := by
  unfold headerStep at h
  split at h
  · cases hm : Marker.fromU8 m with
    | some mk =>
      rw [hm] at h
      obtain ⟨_, s1, h1, h2⟩ := M.bind_ok_inv h
      have := M.wp_ok (wp_parseMarkerInner_raw (pn := True) (dv := True) _ (by simp) (by simp)) h1
      have e : s1 = t := by
        split at h2 <;> simp at h2 <;> exact h2.2
      subst e
      exact effect_geo this.2.2 G
    | none =>
      rw [hm] at h
      obtain ⟨_, s1, h1, h2⟩ := M.bind_ok_inv h
      have := M.wp_ok (wp_skipSegment (pn := True) (dv := True)) h1
      simp at h2
      rw [← h2.2, this.1]
      exact G
  · simp at h
    rw [← h.2]
    exact G

theorem headerLoop_geo : ∀ (fuel : Nat) (last : UInt8) (count : Nat) (s t : H),
    headerLoop fuel last count s = (.ok (), t) → Geo s.dec → Geo t.dec
  | 0, _, _, _, _, h, _ => by simp [headerLoop] at h
  | fuel + 1, last, count, s, t, h, G => by
    unfold headerLoop at h
    obtain ⟨m, s1, h1, h2⟩ := M.bind_ok_inv h
    have e1 : s1.dec = s.dec := by
      unfold readByte at h1
      split at h1 <;> simp at h1
      rw [← h1.2]
    obtain ⟨o, s2, h3, h4⟩ := M.bind_ok_inv h2
    have k := headerStep_geo h3 (by rw [e1]; exact G)
    cases o with
    | none =>
      simp at h4
      rw [← h4]
      exact k
    | some c =>
      dsimp only at h4
      obtain ⟨d, s3, h5, h6⟩ := M.bind_ok_inv h4
      have e3 : s3 = s2 := by
        simp [getDec] at h5
        exact h5.2.symm
      subst e3
      split at h6
      · simp at h6
      · exact headerLoop_geo fuel _ _ _ _ h6 k

theorem decodeHeaders_geo {cpu : Cpu} {o : Options} {buf rest : List UInt8} {d : Decoder}
    (h : decodeHeaders ⟨Decoder.newWithOptions cpu o, buf⟩ = (.ok (), ⟨d, rest⟩)) :
    Geo d ∧ Dims d := by
  unfold decodeHeaders at h
  obtain ⟨v, ⟨d1, r1⟩, h1, h2⟩ := M.bind_ok_inv h
  have e : d1 = Decoder.newWithOptions cpu o := by
    unfold readU16 at h1
    split at h1 <;> simp at h1
    exact h1.2.1.symm
  subst e
  by_cases hm : v ≠ 0xffd8
  · rw [if_pos hm] at h2
    simp at h2
  · rw [if_neg hm] at h2
    exact ⟨headerLoop_geo _ _ _ _ _ h2 (geo_new cpu o),
      (headerLoop_until _ _ _ _ _ h2).2
        ⟨fun h => by simp [Decoder.newWithOptions] at h, Or.inl rfl⟩⟩

/-! ### C65 -/

/-- What is asked of the decoder after the headers, and of the bytes that follow them: the conditions of `Tame`,
but for frame headers that may have come in any way, and be followed by others. The last frame has one or three
components. Of three components the first, and no other, is luma, unless all of them have the factors 1×1: then
they may be in any order, and several may have the same identifier. No frame before the last one had larger
sampling factors, and none of them one component if it has three. -/
structure Spec.TameHeaders (d : Decoder) (rest : List UInt8) : Prop where
  wLe : d.info.width.toNat ≤ 65527
  hLe : d.info.height.toNat ≤ 65527
  comps : (∃ c, d.components = [c] ∧ c.horizontalSample = d.hMax ∧ c.verticalSample = d.vMax ∧
      (d.isProgressive = true ∧ ¬ (d.hMax = 1 ∧ d.vMax = 1) ∧ d.info.height.toNat + 15 < 16 * d.info.width.toNat ∨
       (d.isProgressive = true → d.hMax = 1 ∧ d.vMax = 1) ∧
        64 * ((d.info.width.toNat + 7) / 8) < 9 * d.info.width.toNat)) ∨
    (∃ c c1 c2, d.components = [c, c1, c2] ∧
      (c.componentId = .y ∧ c1.componentId ≠ .y ∧ c2.componentId ≠ .y ∨
        ∀ x ∈ d.components, x.horizontalSample = 1 ∧ x.verticalSample = 1) ∧
      c.horizontalSample = d.hMax ∧ c.verticalSample = d.vMax ∧ d.inputColorspace = .ycbcr ∧
      Converts d.colorFn d.options.getOutColorspace d.info.width.toNat d.hMax d.vMax ∧
      (d.isProgressive = false → d.vMax = 1 ∨ 7 * d.info.width.toNat ≤ 136 * d.info.height.toNat + 64))
  scan : d.isProgressive = false → NoFrameIn rest

/-- **C65** for arbitrary bytes: if no frame header has more than three components (C06), then `decode_buffer` of
a new decoder returns `Ok` or `Err`, whatever the bytes are, if the decoder is as `TameHeaders` asks when it
has read the headers. -/
theorem c65_bytes_partial (cpu : Cpu) (o : Options) (buf : List UInt8) (hmany : ¬ ManyComponents buf)
    (T : ∀ d rest, decodeHeaders ⟨Decoder.newWithOptions cpu o, buf⟩ = (.ok (), ⟨d, rest⟩) →
      TameHeaders d rest) :
    M.Returns ((Decoder.newWithOptions cpu o).decodeBuffer buf).1 := by
  have hhead := c06_no_panic_partial cpu o buf hmany
  have hrh : ((Decoder.newWithOptions cpu o).readHeaders buf).1 =
    (decodeHeaders ⟨Decoder.newWithOptions cpu o, buf⟩).1 := rfl
  rw [hrh] at hhead
  have hdb : ((Decoder.newWithOptions cpu o).decodeBuffer buf).1 =
    (decodeInternal ⟨Decoder.newWithOptions cpu o, buf⟩).1 := rfl
  rw [hdb]
  unfold decodeInternal
  rcases hok : decodeHeaders ⟨Decoder.newWithOptions cpu o, buf⟩ with ⟨_ | er | _ | _, ⟨d, rd⟩⟩
  rotate_left
  · right
    exact ⟨er, by rw [M.bind_apply, hok]⟩
  · rw [hok] at hhead
    rcases hhead with ⟨_, h⟩ | ⟨_, h⟩ <;> cases h
  · rw [hok] at hhead
    rcases hhead with ⟨_, h⟩ | ⟨_, h⟩ <;> cases h
  have T := T d rd hok
  have HR := M.wp_ok (wp_decodeHeaders cpu o buf) hok
  dsimp only at HR
  have I := HR.inv
  obtain ⟨G, D⟩ := decodeHeaders_geo hok
  rw [M.bind_ok hok, M.bind_ok (getDec_apply _ _)]
  by_cases hcheck : d.checkComponentDimensions = .ok ()
  swap
  · obtain ⟨er, he⟩ : ∃ er, d.checkComponentDimensions = .err er := by
      rcases checkComponentDimensions_returns I.maxes.1 with ⟨⟨⟩, e⟩ | e
      · exact absurd e hcheck
      · exact e
    refine Or.inr ⟨er, ?_⟩
    split
    · unfold decodeProgressive
      rw [M.bind_ok (getDec_apply _ _), he]
      rfl
    · have hb : baselineSetup ⟨d, rd⟩ = (.err er, ⟨d, rd⟩) := by
        unfold baselineSetup
        rw [M.bind_ok (getDec_apply _ _), he]
        rfl
      unfold decodeBaseline
      rw [hb]
  have hinv := checkComponentDimensions_inv hcheck
  have hfn : d.colorFn = (Decoder.newWithOptions cpu o).colorFn := I.fixed.2.2
  have hf3 : d.colorFn.Three := by
    rw [hfn]
    exact reachable_three (Reachable.new cpu o)
  have hlen : d.components.length = d.info.components.toNat ∧ d.info.components ≠ 0 := by
    rcases I.frame with ⟨-, e2⟩ | ⟨-, e, e0, -⟩
    · rcases T.comps with ⟨c, h, -⟩ | ⟨c, c1, c2, h, -⟩ <;> rw [e2] at h <;> cases h
    · exact ⟨e, e0⟩
  have h3 : Three d := ⟨by rcases T.comps with ⟨c, h, -⟩ | ⟨c, c1, c2, h, -⟩ <;> rw [h] <;> simp,
    Nat.le_of_eq hlen.1.symm⟩
  obtain ⟨-, -, dX, dY⟩ := D.dims.resolve_left hlen.2
  have hF : ∀ c cs, d.components = c :: cs → c.horizontalSample = d.hMax → c.verticalSample = d.vMax →
      (c.componentId = .y ∧ (∀ x ∈ cs, x.componentId ≠ .y) ∨
        ∀ x ∈ d.components, x.horizontalSample = 1 ∧ x.verticalSample = 1) →
      Frame d d.info.width.toNat d.info.height.toNat d.hMax d.vMax := by
    intro c cs hc e1 e2 hor
    have hp := G.pos (by rw [hc]; simp)
    have hs := G.strides c cs hc e1
    refine ⟨rfl, rfl, hp.1, hp.2, G.maxes, rfl, rfl, ?_, fun _ => G.ratio, ?_, ?_, ?_⟩
    · by_cases hm : d.hMax = 1 ∧ d.vMax = 1
      · rw [decide_eq_true hm]
        cases hi : d.interleaved
        · rfl
        · have := G.inter hi
          omega
      · rw [decide_eq_false hm]
        exact D.inter (by omega)
    · rw [dX, Nat.mul_comm 8]
    · rw [dY, Nat.mul_comm 8]
    · have hone : (∀ x ∈ d.components, x.horizontalSample = 1 ∧ x.verticalSample = 1) →
          d.hMax = 1 ∧ d.vMax = 1 := by
        intro h
        have := h c (by rw [hc]; simp)
        rw [e1, e2] at this
        exact this
      refine ⟨c, cs, hc, fun hn => ?_, e1, e2, ?_, fun x hx => ?_⟩
      · rcases hor with ⟨hy, -⟩ | h
        · exact hy
        · exact absurd (hone h) hn
      · rw [hs c (by rw [hc]; simp), e1, dX]
      · have hx' : x ∈ d.components := by rw [hc]; simp [hx]
        have : x.horizontalSample = 1 ∧ x.verticalSample = 1 := by
          rcases hor with ⟨-, hr⟩ | h
          · exact hinv x hx' (hr x hx)
          · exact h x hx'
        refine ⟨fun hn => ?_, this.1, this.2, by rw [hs x hx', this.1, dX, Nat.one_mul]⟩
        rcases hor with ⟨-, hr⟩ | h
        · exact hr x hx
        · exact absurd (hone h) hn
  have K := I.steady
  rcases T.comps with ⟨c, hc, e1, e2, hkind⟩ | ⟨c, c1, c2, hc, hor, e1, e2, hin, hconv, hroom⟩
  · have F := hF c [] hc e1 e2 (Or.inl ⟨by
      obtain ⟨x, hx, hy⟩ := checkComponentDimensions_luma hcheck
      rw [hc, List.mem_singleton] at hx
      exact hx ▸ hy, by simp⟩)
    obtain ⟨hin, hout⟩ := G.one (by rw [hc]; rfl)
    have U : Usual d _ _ _ _ := ⟨F, T.wLe, T.hLe, Or.inr ⟨c, hc, hin, hout⟩⟩
    rcases hkind with ⟨hp, hn11, low⟩ | ⟨hpf, hfit⟩
    · rw [if_pos hp]
      refine progressive_returns U K h3 hf3 ?_ (fun _ => Or.inr low) rd
      rintro (e | e)
      · exact absurd hin e
      · exact absurd e hn11
    have hconv : Converts d.colorFn d.options.getOutColorspace d.info.width.toNat 1 1 := by
      have hmc : mcuCols d.info.width.toNat 1 = (d.info.width.toNat + 7) / 8 := rfl
      refine ⟨fun _ => ?_, fun e => ?_⟩
      · rw [hmc]
        omega
      · rw [hout] at e
        cases e
    have hfac : ∀ f, factor d f = 1 := by
      intro f
      unfold factor
      rw [if_pos hin]
    split
    · rename_i hpr
      obtain ⟨e1, e2⟩ := hpf hpr
      rw [e1, e2] at U
      exact progressive_returns U K h3 hf3 (fun _ => hconv) (fun _ => Or.inl ⟨rfl, rfl⟩) rd
    · rename_i hpr
      exact baseline_returns U K h3 hf3 (by rw [hfac, hfac]; exact hconv)
        (Or.inl (hfac _)) (noSof_of (T.scan (by simpa using hpr)))
  · have F := hF c [c1, c2] hc e1 e2 (hor.imp_left (by
      rintro ⟨hy, hy1, hy2⟩
      refine ⟨hy, ?_⟩
      intro x hx
      simp only [List.mem_cons, List.not_mem_nil, or_false] at hx
      rcases hx with rfl | rfl
      · exact hy1
      · exact hy2))
    have U : Usual d _ _ _ _ := ⟨F, T.wLe, T.hLe, Or.inl ⟨c, c1, c2, hc, hin⟩⟩
    have hfac : ∀ f, factor d f = f := by
      intro f
      unfold factor
      rw [if_neg (by rw [hin]; decide)]
    split
    · exact progressive_returns U K h3 hf3 (fun _ => hconv) (fun e => by rw [hin] at e; cases e) rd
    · rename_i hpr
      have hp : d.isProgressive = false := by simpa using hpr
      exact baseline_returns U K h3 hf3 (by rw [hfac, hfac]; exact hconv)
        (by rw [hfac]; exact hroom hp) (noSof_of (T.scan hp))

/-- Bytes between the segments, an unknown segment after which the code takes the next byte
for a marker at once, two frame headers and a comment whose length
field is too small, then a scan that breaks off. -/
def oddFile : List UInt8 :=
  [0xFF, 0xD8, 0x11, 0x22] ++
  ([0xFF, 0xDB, 0x00, 0x43, 0x00] ++ List.replicate 64 1) ++
  [0xFF, 0xC0, 0x00, 0x11, 8, 0, 8, 0, 8, 3, 1, 0x21, 0, 2, 0x11, 0, 3, 0x11, 0] ++
  [0xFF, 0xFF, 0x00, 0x04, 0xFE, 0x00] ++
  ([0xDB, 0x00, 0x43, 0x00] ++ List.replicate 64 2) ++
  [0xFF, 0xFE, 0x00, 0x02, 0x41, 0x42] ++
  [0xFF, 0xC0, 0x00, 0x11, 8, 0, 24, 0, 20, 3, 1, 0x22, 0, 2, 0x11, 0, 3, 0x11, 0] ++
  [0xFF, 0xDA, 0x00, 0x0C, 3, 1, 0x00, 2, 0x00, 3, 0x00, 0, 63, 0] ++ [0x12, 0xFF, 0xC4, 0x01]

/-- It meets the hypotheses of `c65_bytes_partial`. -/
theorem oddFile_returns : M.Returns ((Decoder.new ⟨true, true⟩).decodeBuffer oddFile).1 := by
  refine c65_bytes_partial ⟨true, true⟩ {} oddFile (manyTest_spec (by decide +kernel)) ?_
  intro d rest hok
  have h : (fun s : H => (s.rd, s.dec.info.width.toNat, s.dec.info.height.toNat, s.dec.isProgressive,
      s.dec.hMax, s.dec.vMax))
      (decodeHeaders ⟨Decoder.newWithOptions ⟨true, true⟩ {}, oddFile⟩).2 =
      ([0x12, 0xFF, 0xC4, 0x01], 20, 24, false, 2, 2) := by decide +kernel
  have h' : (fun s : H => (decide (s.dec.inputColorspace = .ycbcr), decide (s.dec.colorFn = .rgbAvx),
      decide (s.dec.options.getOutColorspace = .rgb)))
      (decodeHeaders ⟨Decoder.newWithOptions ⟨true, true⟩ {}, oddFile⟩).2 =
      (true, true, true) := by decide +kernel
  have h9 : (fun s : H => s.dec.components.map fun c =>
        (decide (c.componentId = .y), c.horizontalSample, c.verticalSample))
      (decodeHeaders ⟨Decoder.newWithOptions ⟨true, true⟩ {}, oddFile⟩).2 =
        [(true, 2, 2), (false, 1, 1), (false, 1, 1)] := by decide +kernel
  rw [hok] at h h' h9
  dsimp only at h h' h9
  simp only [Prod.mk.injEq, decide_eq_true_eq] at h h'
  obtain ⟨rfl, h1, h2, h3, h4, h5⟩ := h
  obtain ⟨h6, h7, h8⟩ := h'
  obtain ⟨c, c1, c2, hc⟩ : ∃ c c1 c2, d.components = [c, c1, c2] := by
    have hl : d.components.length = 3 := by
      have := congrArg List.length h9
      simpa using this
    match hd : d.components, hl with
    | [a, b, c], _ => exact ⟨a, b, c, rfl⟩
  rw [hc] at h9
  simp only [List.map_cons, List.map_nil, List.cons.injEq, Prod.mk.injEq, decide_eq_true_eq,
    decide_eq_false_iff_not, and_true] at h9
  obtain ⟨⟨g1, g2, g3⟩, ⟨g4, -⟩, g5, -⟩ := h9
  refine ⟨by omega, by omega, Or.inr ⟨c, c1, c2, hc, Or.inl ⟨g1, g4, g5⟩, by omega, by omega, h6, ?_, ?_⟩, fun _ => ?_⟩
  · rw [h7, h8, h1, h4, h5]
    decide +kernel
  · intro _
    right
    omega
  · exact noFrameIn_of (by decide)

/-- A file without subsampling whose first component is chroma. -/
def orderFile : List UInt8 :=
  [0xFF, 0xD8] ++ ([0xFF, 0xDB, 0x00, 0x43, 0x00] ++ List.replicate 64 1) ++
  [0xFF, 0xC0, 0x00, 0x11, 8, 0, 24, 0, 20, 3, 3, 0x11, 0, 1, 0x11, 0, 2, 0x11, 0] ++
  [0xFF, 0xDA, 0x00, 0x0C, 3, 3, 0x00, 1, 0x00, 2, 0x00, 0, 63, 0] ++ [0x12, 0xFF, 0xC4, 0x01]

/-- It meets the hypotheses of `c65_bytes_partial`, too. -/
theorem orderFile_returns : M.Returns ((Decoder.new ⟨true, true⟩).decodeBuffer orderFile).1 := by
  refine c65_bytes_partial ⟨true, true⟩ {} orderFile (manyTest_spec (by decide +kernel)) ?_
  intro d rest hok
  have h : (fun s : H => (s.rd, s.dec.info.width.toNat, s.dec.info.height.toNat, s.dec.isProgressive,
      s.dec.hMax, s.dec.vMax))
      (decodeHeaders ⟨Decoder.newWithOptions ⟨true, true⟩ {}, orderFile⟩).2 =
      ([0x12, 0xFF, 0xC4, 0x01], 20, 24, false, 1, 1) := by decide +kernel
  have h' : (fun s : H => (decide (s.dec.inputColorspace = .ycbcr), decide (s.dec.colorFn = .rgbAvx),
      decide (s.dec.options.getOutColorspace = .rgb)))
      (decodeHeaders ⟨Decoder.newWithOptions ⟨true, true⟩ {}, orderFile⟩).2 =
      (true, true, true) := by decide +kernel
  have h9 : (fun s : H => s.dec.components.map fun c =>
        (decide (c.componentId = .y), c.horizontalSample, c.verticalSample))
      (decodeHeaders ⟨Decoder.newWithOptions ⟨true, true⟩ {}, orderFile⟩).2 =
        [(false, 1, 1), (true, 1, 1), (false, 1, 1)] := by decide +kernel
  rw [hok] at h h' h9
  dsimp only at h h' h9
  simp only [Prod.mk.injEq, decide_eq_true_eq] at h h'
  obtain ⟨rfl, h1, h2, h3, h4, h5⟩ := h
  obtain ⟨h6, h7, h8⟩ := h'
  obtain ⟨c, c1, c2, hc⟩ : ∃ c c1 c2, d.components = [c, c1, c2] := by
    have hl : d.components.length = 3 := by
      have := congrArg List.length h9
      simpa using this
    match hd : d.components, hl with
    | [a, b, c], _ => exact ⟨a, b, c, rfl⟩
  rw [hc] at h9
  simp only [List.map_cons, List.map_nil, List.cons.injEq, Prod.mk.injEq, decide_eq_true_eq,
    decide_eq_false_iff_not, and_true] at h9
  obtain ⟨⟨-, g2, g3⟩, ⟨-, g4, g5⟩, -, g6, g7⟩ := h9
  refine ⟨by omega, by omega, Or.inr ⟨c, c1, c2, hc, Or.inr ?_, by omega, by omega, h6, ?_, ?_⟩, fun _ => ?_⟩
  · rw [hc]
    intro x hx
    simp only [List.mem_cons, List.not_mem_nil, or_false] at hx
    rcases hx with rfl | rfl | rfl
    · exact ⟨g2, g3⟩
    · exact ⟨g4, g5⟩
    · exact ⟨g6, g7⟩
  · rw [h7, h8, h1, h4, h5]
    decide +kernel
  · intro _
    right
    omega
  · exact noFrameIn_of (by decide)

end Zune
