import Verif.Lemmas.Formats
/-! The output of decoders that differ in the output colour space. -/

namespace Zune
open Spec

section
variable {Y : ColorSpace}

theorem cs_setUpsampling : Lock (csH Y) (liftDec Decoder.setUpsampling) (liftDec Decoder.setUpsampling) := by
  have key : ∀ (d : Decoder), Decoder.setUpsampling (toCs Y () d) =
      ((Decoder.setUpsampling d).1, toCs Y () (Decoder.setUpsampling d).2) := by
    intro d
    unfold Decoder.setUpsampling
    dsimp only
    by_cases h1 : d.hMax = d.vMax ∧ d.hMax = 1
    · rw [if_pos h1, if_pos h1]
    rw [if_neg h1, if_neg h1]
    by_cases h2 : d.hMax = 2 ∧ d.vMax = 1
    · rw [if_pos h2, if_pos h2]
      generalize setTailUpSampler _ _ = r
      cases r <;> rfl
    rw [if_neg h2, if_neg h2]
    by_cases h3 : d.hMax = 1 ∧ d.vMax = 2
    · rw [if_pos h3, if_pos h3]
      generalize setTailUpSampler _ _ = r
      cases r <;> rfl
    rw [if_neg h3, if_neg h3]
    by_cases h4 : d.hMax = 2 ∧ d.vMax = 2
    · rw [if_pos h4, if_pos h4]
      generalize setTailUpSampler _ _ = r
      cases r <;> rfl
    rw [if_neg h4, if_neg h4]
  intro a s
  refine ⟨a, ?_⟩
  have e : (csH Y a s).dec = toCs Y () s.dec := rfl
  unfold liftDec
  rw [e, key]

/-- The two scans: one for the decoder, one for the other output. -/
def Scans (Y : ColorSpace) (s s' : Scan) : Prop :=
  ∃ m d c0, s = mkScan m d c0 ∧ s' = mkScan m (toCs Y () d) c0

theorem follow_baselineSetup : Follow (csH Y ()) (Scans Y) baselineSetup baselineSetup := by
  have h1 := cs_setUpsampling (Y := Y)
  unfold baselineSetup
  refine Follow.bind (V := fun d d' => d' = toCs Y () d) (fun s => ⟨_, rfl, rfl⟩) ?_
  rintro d _ rfl
  refine Follow.bind (Follow.of_lock (Lock.ofOut _)) fun _ _ _ =>
    Follow.bind (Follow.of_lock (Lock.ofOut _)) fun _ _ _ =>
    Follow.bind (Follow.of_lock (m := mcuCounts) (m' := mcuCounts) ?_) fun m _ e => ?_
  · unfold mcuCounts
    exact Lock.getDec fun _ d => Lock.ite (Lock.bind h1 fun _ => Lock.getDec fun _ d =>
      Lock.ite (Lock.pure _) (Lock.ite (Lock.pure _) (Lock.pure _))) (Lock.pure _)
  · subst e
    refine Follow.bind (Follow.of_lock (m := grayReset m) (m' := grayReset m) ?_) fun m _ e => ?_
    · unfold grayReset
      exact Lock.getDec fun _ d => Lock.ite (Lock.ite (Lock.throw _) (Lock.ite (Lock.panic _)
        (Lock.bind (Lock.modDec fun a d => ⟨a, rfl⟩) fun _ => Lock.pure _))) (Lock.pure _)
    subst e
    refine Follow.bind (V := fun d d' => d' = toCs Y () d) (fun s => ⟨_, rfl, rfl⟩) ?_
    rintro d1 _ rfl
    refine Follow.bind (Follow.of_lock (Lock.idx _ _)) fun c0 _ e => ?_
    subst e
    dsimp only
    intro s
    by_cases hc : (mkScan m d1 c0).chunk = 0
    · rw [if_pos hc]
      trivial
    · rw [if_neg hc, if_neg (c := (mkScan m (toCs Y () d1) c0).chunk = 0)]
      · exact ⟨_, rfl, m, d1, c0, rfl, rfl⟩
      · show chunkLen (toCs Y () d1) ≠ 0
        have hc : ¬ chunkLen d1 = 0 := hc
        unfold chunkLen at hc ⊢
        simp only [ne_eq, Nat.mul_eq_zero, not_or] at hc ⊢
        exact ⟨⟨⟨⟨hc.1.1.1.1, (numComponents_pos _).ne'⟩, hc.1.1.2⟩, hc.1.2⟩, hc.2⟩

end

namespace Spec

/-- The jobs of a strip of an image with three components, one for YCbCr output and one for the output `Y`:
both go well on coefficients that agree as far as `Y` needs them, with results related by `Rel`. -/
def JobRel (d : Decoder) (c0 c1 c2 : Component) (w fh fv : Nat) (Y : ColorSpace)
    (Rel : List UInt8 → List UInt8 → Prop) : Prop :=
  ∀ (r : SubSampRatios) (u1 u2 : UpSampler) (temp temp' : List (List I16)),
    ((fh = 1 ∧ fv = 1) ∨ (u1 = u2 ∧ Sampling d.cpu d.options.useUnsafe fh fv r u1)) →
    (∃ b, temp[0]? = some b ∧ b.length = fh * fv * (64 * (fh * mcuCols w fh))) →
    (∀ i, i = 1 ∨ i = 2 → ∃ b, temp[i]? = some b ∧ b.length = fh * (64 * mcuCols w fh)) →
    (∀ i, i < Y.numComponents → temp'[i]? = temp[i]?) →
    ∃ a b, postProcess d.idctFn d.colorFn [c0, { c1 with upSampler := u1 }, { c2 with upSampler := u2 }]
        .ycbcr .ycbcr w temp (List.replicate (8 * (fh * fv) * (w * 3)) 0) = .ok a ∧
      postProcess d.idctFn d.colorFn [c0, { c1 with upSampler := u1 }, { c2 with upSampler := u2 }]
        .ycbcr Y w temp' (List.replicate (8 * (fh * fv) * (w * Y.numComponents)) 0) = .ok b ∧ Rel a b

/-- The same error, or images put together from related strips. -/
def Related (d : Decoder) (Y : ColorSpace) (Rel : List UInt8 → List UInt8 → Prop) (r r' : Out (List UInt8)) :
    Prop :=
  (∃ e, r = .err e ∧ r' = .err e) ∨
    ∃ parts parts', List.Forall₂ Rel parts parts' ∧ r = .ok (assemble (outBufferLen d) (keepLen d) parts) ∧
      r' = .ok (assemble (outBufferLen (toCs Y () d)) (keepLen (toCs Y () d)) parts')

end Spec
open Spec

section
variable {Y : ColorSpace} {d : Decoder} {w h fh fv : Nat}

theorem joinPool_related {Rel : List UInt8 → List UInt8 → Prop} {l l' : List (Out (List UInt8))}
    (h : List.Forall₂ (fun o o' => ∃ a b, o = .ok a ∧ o' = .ok b ∧ Rel a b) l l') :
    ∃ p p', List.Forall₂ Rel p p' ∧ l = p.map .ok ∧ l' = p'.map .ok := by
  induction h with
  | nil => exact ⟨[], [], .nil, rfl, rfl⟩
  | cons hx _ ih =>
    obtain ⟨a, b, rfl, rfl, hab⟩ := hx
    obtain ⟨p, p', hp, rfl, rfl⟩ := ih
    exact ⟨a :: p, b :: p', .cons hab hp, rfl, rfl⟩

theorem joinPool_oks (p : List (List UInt8)) : joinPool (.ok ()) (p.map .ok) = .ok p ∧
    ∀ e, joinPool (.err e) (p.map .ok) = .err e := by
  have hu : (p.map (Out.ok : List UInt8 → _)).any Out.isUnsound = false := by
    rw [List.any_eq_false]
    intro j hm
    obtain ⟨x, -, rfl⟩ := List.mem_map.1 hm
    exact fun h => by cases h
  have ha : (p.map (Out.ok : List UInt8 → _)).all Out.isOk = true := by
    rw [List.all_eq_true]
    intro j hm
    obtain ⟨x, -, rfl⟩ := List.mem_map.1 hm
    rfl
  have hc : Out.collect (p.map (Out.ok : List UInt8 → _)) = .ok p := by
    induction p with
    | nil => rfl
    | cons a l ih =>
      rw [List.map_cons]
      unfold Out.collect
      rw [ih (by
        rw [List.any_eq_false]
        intro j hm
        obtain ⟨x, -, rfl⟩ := List.mem_map.1 hm
        exact fun h => by cases h) (by
        rw [List.all_eq_true]
        intro j hm
        obtain ⟨x, -, rfl⟩ := List.mem_map.1 hm
        rfl)]
      rfl
  unfold joinPool
  rw [hu, ha, hc]
  exact ⟨rfl, fun _ => rfl⟩

theorem baseline_related {c0 c1 c2 : Component} (R : ColourFrame d c0 c1 c2 w h fh fv) (K : Steady d d)
    (h3 : Three d) (hf3 : d.colorFn.Three) (hout : d.options.outColorspace = .ycbcr)
    (hY : Y.numComponents ≤ 3) (hfit : fv = 1 ∨ 7 * w ≤ 136 * h + 64) {rd : List UInt8} (hn : NoSof rd)
    {Rel : List UInt8 → List UInt8 → Prop} (hj : JobRel d c0 c1 c2 w fh fv Y Rel) :
    Related d Y Rel (decodeBaseline ⟨d, rd⟩).1 (decodeBaseline ⟨toCs Y () d, rd⟩).1 := by
  have hcn : d.inputColorspace.numComponents ≤ d.components.length := by
    rw [R.comps, R.inCs]; exact Nat.le_refl _
  have hout' : d.options.getOutColorspace = .ycbcr := hout
  have hcsY : (toCs Y () d).options.getOutColorspace = Y := by
    show (if d.options.outColorspace = .grayscale then _ else Y) = Y
    rw [hout]
    rfl
  have hret := wp_baselineSetup_returns R.frame hcn rd
  have hfol := follow_baselineSetup (Y := Y) ⟨d, rd⟩
  have hcsH : csH Y () ⟨d, rd⟩ = ⟨toCs Y () d, rd⟩ := rfl
  rw [hcsH] at hfol
  unfold decodeBaseline
  rcases hs : baselineSetup ⟨d, rd⟩ with ⟨s | e | _ | _, h'⟩
  rotate_left
  · rw [hs] at hfol
    dsimp only at hfol
    rw [hfol]
    exact Or.inl ⟨e, rfl, rfl⟩
  · unfold M.wp at hret
    rw [hs] at hret
    exact hret.elim
  · unfold M.wp at hret
    rw [hs] at hret
    exact hret.elim
  have ht := M.wp_ok hret hs
  have hconv : Converts d.colorFn d.options.getOutColorspace w fh fv := by
    rw [hout']
    exact ⟨fun e => (by cases e), fun e => (by cases e)⟩
  obtain ⟨St, hrd⟩ := started_colour R K h3 hf3 hconv hfit ht hs
  obtain ⟨m, r, u1, u2, e, G, hu, -⟩ := colour_setup_of R ht rd
  rw [hs] at e
  have hmcu := (strip_mcus G R.wLe).1
  rw [hs] at hfol
  obtain ⟨s', hs', m1, d1, c01, es, es'⟩ := hfol
  obtain ⟨e1, e2⟩ := Prod.mk.inj e
  have e1 := Out.ok.inj e1
  subst e2
  rw [← e1] at hmcu G
  obtain ⟨q1, q2, q3, q4, q5⟩ := R.shape
  have F := R.frame
  have hf := F.fpos
  have hX : d.mcuX = mcuCols w fh := F.mcuX
  -- the other scan
  have hcs' : s' = csScan s s'.outCs s'.outLen s'.chunk := by rw [es, es']; rfl
  have eo1 : d1.options.outColorspace = .ycbcr := by
    have : s.outCs = d.options.getOutColorspace := by rw [e1]; rfl
    rw [es] at this
    exact this.trans hout'
  have eo : s'.outCs = Y := by
    rw [es']
    show (if d1.options.outColorspace = .grayscale then _ else Y) = Y
    rw [eo1]
    rfl
  have g1 : d1.options.getOutColorspace = .ycbcr := eo1
  have g2 : (toCs Y () d1).options.getOutColorspace = Y := by
    show (if d1.options.outColorspace = .grayscale then _ else Y) = Y
    rw [eo1]
    rfl
  have hch : s'.chunk * 3 = s.chunk * Y.numComponents := by
    rw [es, es']
    show chunkLen (toCs Y () d1) * 3 = chunkLen d1 * _
    unfold chunkLen
    rw [g1, g2]
    show _ = d1.info.width.toNat * 3 * 8 * d1.hMax * d1.vMax * _
    ring
  have hol : s'.outLen * 3 = s.outLen * Y.numComponents := by
    rw [es, es']
    show outBufferLen (toCs Y () d1) * 3 = outBufferLen d1 * _
    unfold outBufferLen
    rw [g1, g2]
    show _ = ((d1.info.width + 8).toNat * (d1.info.height + 8).toNat * 3 +
      (if d1.interleaved then 1 else 0) * 128 * d1.info.height.toNat * 3) * _
    ring
  have hq : s'.outLen / s'.chunk = s.outLen / s.chunk := by
    rw [← Nat.mul_div_mul_right s'.outLen s'.chunk (by decide : 0 < 3), hch, hol,
      Nat.mul_div_mul_right _ _ (numComponents_pos Y)]
  have hchunk : s.chunk = 8 * (fh * fv) * (w * 3) := by
    rw [e1]
    show d.info.width.toNat * d.options.getOutColorspace.numComponents * 8 * d.hMax * d.vMax = _
    rw [F.width, F.hMax, F.vMax, hout']
    show w * 3 * 8 * fh * fv = _
    ring
  have hchunk' : s'.chunk = 8 * (fh * fv) * (w * Y.numComponents) := by
    have : s'.chunk * 3 = 8 * (fh * fv) * (w * Y.numComponents) * 3 := by
      rw [hch, hchunk]
      ring
    exact Nat.eq_of_mul_eq_mul_right (by decide) this
  -- the loops
  have hR : ∀ temp temp', StripBufs s (prepDec d c0 c1 c2 r u1 u2) temp → Cut Y.numComponents temp temp' →
      ∃ a b, jobOf s temp = .ok a ∧ jobOf s' temp' = .ok b ∧ Rel a b := by
    rintro temp temp' ⟨-, hb⟩ hcut
    have hbuf : ∀ i c, [c0, { c1 with upSampler := u1 }, { c2 with upSampler := u2 }][i]? = some c →
        i < 3 → ∃ b, temp[i]? = some b ∧
          b.length = 64 * (c.verticalSample * c.horizontalSample) * (fh * mcuCols w fh) := by
      intro i c hi hlt
      obtain ⟨b, b1, b2⟩ := hb i c hi (by
        show i < d.options.getOutColorspace.numComponents
        rw [hout']
        exact hlt)
      refine ⟨b, b1, ?_⟩
      rw [b2, ← hmcu]
      ring
    have key := hj r u1 u2 temp temp' hu (by
      obtain ⟨b, b1, b2⟩ := hbuf 0 c0 rfl (by decide)
      refine ⟨b, b1, ?_⟩
      rw [b2, q2, q3]
      ring) (by
      rintro i (rfl | rfl)
      · obtain ⟨b, b1, b2⟩ := hbuf 1 _ rfl (by decide)
        refine ⟨b, b1, ?_⟩
        obtain ⟨-, a1, a2, -⟩ := q5 c1 (by simp)
        rw [b2, a1, a2]
        ring
      · obtain ⟨b, b1, b2⟩ := hbuf 2 _ rfl (by decide)
        refine ⟨b, b1, ?_⟩
        obtain ⟨-, a1, a2, -⟩ := q5 c2 (by simp)
        rw [b2, a1, a2]
        ring) (by
      intro i hi
      have := hcut i
      rw [this]
      simp only [if_pos hi, Option.map_id'])
    rw [← hchunk, ← hchunk', ← F.width, ← R.inCs] at key
    have j1 : jobOf s temp = postProcess d.idctFn d.colorFn
        [c0, { c1 with upSampler := u1 }, { c2 with upSampler := u2 }] d.inputColorspace .ycbcr
          d.info.width.toNat temp (List.replicate s.chunk 0) := by
      rw [← hout', e1]
      rfl
    have j2 : jobOf s' temp' = postProcess d.idctFn d.colorFn
        [c0, { c1 with upSampler := u1 }, { c2 with upSampler := u2 }] d.inputColorspace Y
          d.info.width.toNat temp' (List.replicate s'.chunk 0) := by
      rw [hcs', ← eo, e1]
      rfl
    rw [j1, j2]
    have hyc : d.inputColorspace = .ycbcr := R.inCs
    rw [hyc] at key ⊢
    exact key
  obtain ⟨l', k1, k2, k3, k4⟩ := follow_strips (Y := Y) hY hcs' St.three hn St.units St.cs St.jobs hq
    (R := fun o o' => ∃ a b, o = .ok a ∧ o' = .ok b ∧ Rel a b) hR s.mcuHeight
    (t := ⟨prepDec d c0 c1 c2 r u1 u2, ⟨BitStream.new, rd⟩, []⟩) (l := [])
    ⟨St.kept, List.suffix_refl _, fun m hm => (by cases hm), Nat.zero_le _, fun j hj => (by cases hj)⟩ .nil
    (by simpa using St.room)
  have hN := wpN_strips St.three hn St.units St.cs St.jobs s.mcuHeight (rd0 := rd)
    (t := ⟨prepDec d c0 c1 c2 r u1 u2, ⟨BitStream.new, rd⟩, []⟩)
    ⟨St.kept, List.suffix_refl _, fun m hm => (by cases hm), Nat.zero_le _, fun j hj => (by cases hj)⟩
    (by simpa using St.room)
  have hmh : s'.mcuHeight = s.mcuHeight := by rw [hcs']
  have k1' : strips s' s.mcuHeight ⟨toCs Y () (prepDec d c0 c1 c2 r u1 u2), ⟨BitStream.new, rd⟩, []⟩ = _ := k1
  rw [hs']
  dsimp only
  rw [hmh, k1']
  obtain ⟨p, p', hp, ep, ep'⟩ := joinPool_related k2
  rcases hst : strips s s.mcuHeight ⟨prepDec d c0 c1 c2 r u1 u2, ⟨BitStream.new, rd⟩, []⟩ with ⟨o, t⟩
  rw [hst] at ep k4
  dsimp only at ep k4 ⊢
  rw [ep, ep']
  rcases k4 with ⟨⟨⟩, rfl⟩ | ⟨er, rfl⟩
  · rw [(joinPool_oks p).1, (joinPool_oks p').1]
    have hni := M.wp_ok hN hst
    refine Or.inr ⟨p, p', hp, ?_, ?_⟩
    · have a1 : s.outLen = outBufferLen d := by rw [e1]; rfl
      have a2 : keepLen t.dec = keepLen d := by
        unfold keepLen
        rw [hni.dec.info, hni.dec.opts]
        rfl
      rw [← a1, ← a2]
      rfl
    · have a1 : s'.outLen = outBufferLen (toCs Y () d) := by
        have : s'.outLen * 3 = outBufferLen (toCs Y () d) * 3 := by
          rw [hol, e1]
          show outBufferLen (prepDec d c0 c1 c2 r u1 u2) * _ = _
          unfold outBufferLen
          rw [hcsY]
          show ((d.info.width + 8).toNat * (d.info.height + 8).toNat * d.options.getOutColorspace.numComponents +
            (if d.interleaved then 1 else 0) * 128 * d.info.height.toNat *
              d.options.getOutColorspace.numComponents) * _ = _
          rw [hout']
          show ((d.info.width + 8).toNat * (d.info.height + 8).toNat * 3 +
            (if d.interleaved then 1 else 0) * 128 * d.info.height.toNat * 3) * _ = _
          ring
        exact Nat.eq_of_mul_eq_mul_right (by decide) this
      have a2 : keepLen (toCs Y () t.dec) = keepLen (toCs Y () d) := by
        unfold keepLen
        show t.dec.info.width.toNat * t.dec.info.height.toNat * ColorSpace.numComponents
          (if t.dec.options.outColorspace = .grayscale then _ else _) = _
        rw [hni.dec.info, hni.dec.opts]
        rfl
      rw [← a1, ← a2]
      rfl
  · rw [(joinPool_oks p).2, (joinPool_oks p').2]
    exact Or.inl ⟨er, rfl, rfl⟩
end

/-! ### Progressive images -/

section
variable {Y : ColorSpace} {l : List (Out (List UInt8))}

abbrev csK (Y : ColorSpace) (l : List (Out (List UInt8))) : Unit → T → T := fun _ => csT Y l

theorem cs_getMarker : Lock (csK Y l) getMarker getMarker := by
  intro a t
  refine ⟨a, ?_⟩
  unfold getMarker
  dsimp only
  cases t.io.bs.marker with
  | some m => rfl
  | none =>
    dsimp only
    rcases scanMarker false t.io.rd with ⟨_ | _, _⟩ <;> rfl

theorem cs_takeMarker : Lock (csK Y l) takeMarker takeMarker := by
  intro a t
  refine ⟨a, ?_⟩
  unfold takeMarker
  dsimp only
  cases t.io.bs.marker <;> rfl

theorem cs_progTable (ts : List (Option HuffmanTable)) (i : Nat) :
    Lock (csK Y l) (progTable ts i) (progTable ts i) := by
  intro a t
  refine ⟨a, ?_⟩
  unfold progTable
  rcases ts[i]? with _ | _ | _ <;> rfl

theorem cs_setPred (k : Nat) (p : I32) : Lock (csK Y l) (setPred k p) (setPred k p) := fun a _ => ⟨a, rfl⟩

theorem cs_liftB {α : Type} (m : M B α) : Lock (csK Y l) (liftB m) (liftB m) := fun a _ => ⟨a, rfl⟩

theorem cs_progDc (k : Nat) (c : I16) (table : HuffmanTable) :
    Lock (csK Y l) (progDc k c table) (progDc k c table) := by
  unfold progDc
  refine Lock.get fun a t => Lock.bind (Lock.idx _ _) fun comp => Lock.ite ?_ (cs_liftB _)
  refine Lock.bind (cs_liftB _) fun p => ?_
  exact Lock.bind (cs_setPred _ _) fun _ => Lock.pure _

theorem cs_progBlock (k mw i j : Nat) (block : List I16) :
    Lock (csK Y l) (progBlock k mw i j block) (progBlock k mw i j block) := by
  unfold progBlock
  refine Lock.get fun a t => Lock.bind (Lock.idx _ _) fun comp => Lock.ite ?_ ?_
  · exact Lock.bind (cs_progTable _ _) fun table => Lock.bind (Lock.idx _ _) fun c =>
      Lock.bind (cs_progDc _ _ _) fun v => Lock.pure _
  · refine Lock.bind (cs_progTable _ _) fun table => Lock.ite ?_ ?_
    · refine Lock.ite (Lock.bind (fun a t => ⟨a, rfl⟩) fun _ => Lock.pure _) ?_
      exact Lock.bind (cs_liftB _) fun b => Lock.pure _
    · exact Lock.bind (cs_liftB _) fun b => Lock.pure _

theorem cs_progLoop (k mw mh : Nat) : ∀ fuel i j bufs,
    Lock (csK Y l) (progLoop k mw mh fuel i j bufs) (progLoop k mw mh fuel i j bufs)
  | 0, i, j, bufs => by
    unfold progLoop
    exact Lock.ite Lock.diverge (Lock.pure _)
  | fuel + 1, i, j, bufs => by
    have ih := fun i j bufs => cs_progLoop k mw mh fuel i j bufs
    unfold progLoop
    refine Lock.ite (Lock.ite ?_ (ih _ _ _)) (Lock.pure _)
    refine Lock.get fun a t => Lock.bind (Lock.idx _ _) fun comp => ?_
    refine Lock.bind (Lock.unwrap _) fun buf => Lock.ite ?_ (Lock.panic _)
    refine Lock.bind (cs_progBlock _ _ _ _ _) fun p => ?_
    exact Lock.bind cs_countDown fun _ => ih _ _ _

theorem cs_interSample (i j n : Nat) (comp : Component) (table : HuffmanTable) (bufs : List (List I16))
    (vh : Nat × Nat) : Lock (csK Y l) (interSample i j n comp table bufs vh)
      (interSample i j n comp table bufs vh) := by
  unfold interSample
  exact Lock.bind (Lock.idx _ _) fun buf => Lock.bind (Lock.idx _ _) fun c =>
    Lock.bind (cs_progDc _ _ _) fun v => Lock.pure _

theorem cs_interComponent (i j : Nat) (bufs : List (List I16)) (k : Nat) :
    Lock (csK Y l) (interComponent i j bufs k) (interComponent i j bufs k) := by
  unfold interComponent
  refine Lock.get fun a t => Lock.bind (Lock.idx _ _) fun n => Lock.ite (Lock.throw _) ?_
  refine Lock.bind (Lock.idx _ _) fun comp => Lock.bind (cs_progTable _ _) fun table => ?_
  refine Lock.bind (Lock.foldM (fun b vh => cs_interSample _ _ _ _ _ _ _) _ _) fun bufs => ?_
  exact Lock.bind cs_countDown fun _ => Lock.pure _

theorem cs_parseEntropy (bufs : List (List I16)) :
    Lock (csK Y l) (parseEntropy bufs) (parseEntropy bufs) := by
  unfold parseEntropy
  refine Lock.get fun a t => Lock.bind (Lock.ofOut _) fun _ => Lock.bind (fun a t => ⟨a, rfl⟩) fun _ => ?_
  refine Lock.get fun a t => Lock.ite (Lock.throw _) (Lock.ite ?_ ?_)
  · refine Lock.ite (Lock.throw _) (Lock.bind (Lock.idx _ _) fun k => Lock.ite (Lock.throw _) ?_)
    exact Lock.bind (Lock.idx _ _) fun comp => cs_progLoop _ _ _ _ _ _ _
  · refine Lock.ite (Lock.throw _) (Lock.foldM (fun b p => ?_) _ _)
    exact Lock.foldM (fun b k => cs_interComponent _ _ _ _) _ _

theorem cs_scanLoop : ∀ fuel seen m bufs,
    Lock (csK Y l) (scanLoop fuel seen m bufs) (scanLoop fuel seen m bufs)
  | 0, seen, m, bufs => by
    unfold scanLoop
    exact Lock.ite Lock.diverge (Lock.pure _)
  | fuel + 1, seen, m, bufs => by
    have ih := fun s m b => cs_scanLoop fuel s m b
    unfold scanLoop
    cases m
    case eoi => exact Lock.pure _
    case dht =>
      exact Lock.bind (cs_liftH cs_parseHuffman) fun _ => Lock.bind cs_getMarker fun m => ih _ _ _
    case sos =>
      refine Lock.bind (cs_liftH cs_parseSos) fun _ => Lock.bind (fun a t => ⟨a, rfl⟩) fun _ => ?_
      refine Lock.bind (cs_parseEntropy _) fun bufs => Lock.bind cs_getMarker fun m => ?_
      refine Lock.get fun a t => Lock.ite (Lock.throw _) ?_
      exact Lock.bind (fun a t => ⟨a, rfl⟩) fun _ => ih _ _ _
    all_goals exact Lock.pure _

theorem cs_progScans (bufs : List (List I16)) : Lock (csK Y l) (progScans bufs) (progScans bufs) := by
  unfold progScans
  exact Lock.bind (cs_parseEntropy _) fun bufs => Lock.bind cs_takeMarker fun m =>
    Lock.get fun a t => cs_scanLoop _ _ _ _

theorem cs_runScans (bufs : List (List I16)) : Lock (csH Y) (runScans bufs) (runScans bufs) := by
  intro a s
  obtain ⟨b, e⟩ := cs_progScans (Y := Y) (l := []) bufs a ⟨s.dec, progIo s, []⟩
  refine ⟨b, ?_⟩
  have e' : progScans bufs ⟨toCs Y () s.dec, progIo s, []⟩ = _ := e
  have hio : progIo (csH Y a s) = progIo s := rfl
  have hd : (csH Y a s).dec = toCs Y () s.dec := rfl
  unfold runScans
  dsimp only
  have hd : toCs Y a s.dec = toCs Y () s.dec := rfl
  rw [hio]
  show (((progScans bufs ⟨toCs Y () s.dec, progIo s, []⟩).1, _) : Out _ × H) = _
  rw [e']
end

theorem cs_finishSetup {Y : ColorSpace} (n : Nat) : Lock (csH Y) (finishSetup n) (finishSetup n) := by
  unfold finishSetup
  refine Lock.bind cs_setUpsampling fun _ => Lock.getDec fun a s => ?_
  refine Lock.ite (Lock.ite (Lock.throw _) (Lock.ite (Lock.panic _) ?_)) (Lock.pure _)
  exact Lock.bind (fun a s => ⟨a, rfl⟩) fun _ => Lock.pure _

section
variable {Y : ColorSpace} {d : Decoder} {w h fh fv : Nat}

theorem finish_related {c0 c1 c2 : Component} (R : ColourFrame d c0 c1 c2 w h fh fv)
    (hout : d.options.outColorspace = .ycbcr) {Rel : List UInt8 → List UInt8 → Prop}
    (hj : JobRel d c0 c1 c2 w fh fv Y Rel) (bufs : List (List I16)) (rd : List UInt8) :
    Related d Y Rel (finishProgressive bufs (d.mcuX * 64) ⟨d, rd⟩).1
      (finishProgressive bufs (d.mcuX * 64) ⟨toCs Y () d, rd⟩).1 := by
  obtain ⟨r, u1, u2, mw', bias, hsetup, hmw, hu⟩ := finishSetup_colour R (d.mcuX * 64) rd
  have hsetup' : finishSetup (d.mcuX * 64) ⟨toCs Y () d, rd⟩ =
      (.ok (mw', bias), ⟨toCs Y () (prepDec d c0 c1 c2 r u1 u2), rd⟩) := by
    obtain ⟨b, e⟩ := cs_finishSetup (Y := Y) (d.mcuX * 64) () ⟨d, rd⟩
    have e' : finishSetup (d.mcuX * 64) ⟨toCs Y () d, rd⟩ = _ := e
    rw [e', hsetup]
  obtain ⟨q1, q2, q3, q4, q5⟩ := R.shape
  have F := R.frame
  have hf := F.fpos
  have hw0 := F.wpos
  have hX : d.mcuX = mcuCols w fh := F.mcuX
  have hX0 : 0 < mcuCols w fh := by
    unfold mcuCols
    apply Nat.div_pos <;> omega
  have hout' : d.options.getOutColorspace = .ycbcr := hout
  have hcsY : (toCs Y () d).options.getOutColorspace = Y := by
    show (if d.options.outColorspace = .grayscale then _ else Y) = Y
    rw [hout, if_neg (by decide)]
  have hnp := numComponents_pos Y
  have hchunk : chunkLen (prepDec d c0 c1 c2 r u1 u2) = 8 * (fh * fv) * (w * 3) := by
    show d.info.width.toNat * d.options.getOutColorspace.numComponents * 8 * d.hMax * d.vMax = _
    rw [F.width, F.hMax, F.vMax, hout']
    show w * 3 * 8 * fh * fv = _
    ring
  have hchunk' : chunkLen (toCs Y () (prepDec d c0 c1 c2 r u1 u2)) = 8 * (fh * fv) * (w * Y.numComponents) := by
    show d.info.width.toNat * (toCs Y () d).options.getOutColorspace.numComponents * 8 * d.hMax * d.vMax = _
    rw [F.width, F.hMax, F.vMax, hcsY]
    ring
  have hlen : outBufferLen (prepDec d c0 c1 c2 r u1 u2) = outBufferLen d := rfl
  have hlen' : outBufferLen (toCs Y () (prepDec d c0 c1 c2 r u1 u2)) = outBufferLen (toCs Y () d) := rfl
  have hratio : outBufferLen (toCs Y () d) / (8 * (fh * fv) * (w * Y.numComponents)) =
      outBufferLen d / (8 * (fh * fv) * (w * 3)) := by
    have a1 : outBufferLen (toCs Y () d) = ((d.info.width + 8).toNat * (d.info.height + 8).toNat +
        (if d.interleaved then 1 else 0) * 128 * d.info.height.toNat) * Y.numComponents := by
      unfold outBufferLen
      rw [hcsY]
      show (d.info.width + 8).toNat * (d.info.height + 8).toNat * Y.numComponents +
            (if d.interleaved then 1 else 0) * 128 * d.info.height.toNat * Y.numComponents = _
      ring
    have a2 : outBufferLen d = ((d.info.width + 8).toNat * (d.info.height + 8).toNat +
        (if d.interleaved then 1 else 0) * 128 * d.info.height.toNat) * 3 := by
      unfold outBufferLen
      rw [hout']
      show (d.info.width + 8).toNat * (d.info.height + 8).toNat * 3 +
            (if d.interleaved then 1 else 0) * 128 * d.info.height.toNat * 3 = _
      ring
    rw [a1, a2, ← Nat.mul_assoc, ← Nat.mul_assoc _ w 3, Nat.mul_div_mul_right _ _ hnp,
      Nat.mul_div_mul_right _ _ (show 0 < 3 by decide)]
  have hch0 : ∀ n, 0 < n → 8 * (fh * fv) * (w * n) ≠ 0 := by
    intro n hn
    have := hf.1
    have := hf.2
    positivity
  obtain ⟨-, a1, a2, a3⟩ := q5 c1 (by simp)
  obtain ⟨-, -, -, a4⟩ := q5 c2 (by simp)
  have n0 : mw' * c0.verticalSample * c0.horizontalSample * bias = fh * fv * (64 * (fh * mcuCols w fh)) := by
    rw [q2, q3, ← hX]
    calc mw' * fv * fh * bias = mw' * bias * (fh * fv) := by ring
      _ = _ := by rw [hmw]; ring
  have n1 : mw' * c1.verticalSample * c1.horizontalSample * bias = fh * (64 * mcuCols w fh) := by
    rw [a1, a2, ← hX]
    calc mw' * 1 * 1 * bias = mw' * bias := by ring
      _ = _ := by rw [hmw]; ring
  have p0 : fh * fv * (64 * (fh * mcuCols w fh)) ≠ 0 := by
    have := hf.1
    have := hf.2
    positivity
  have p1 : fh * (64 * mcuCols w fh) ≠ 0 := by
    have := hf.1
    positivity
  let ss : List (List (List I16)) :=
    ((((chunksExact (fh * fv * (64 * (fh * mcuCols w fh))) (bufs.getD 0 [])).zip
      ((chunksExact (fh * (64 * mcuCols w fh)) (bufs.getD 1 [])).zip
        (chunksExact (fh * (64 * mcuCols w fh)) (bufs.getD 2 [])))).take
          (outBufferLen d / (8 * (fh * fv) * (w * 3)))).map fun (y, cb, cr) => [y, cb, cr])
  have hps : progStrips (prepDec d c0 c1 c2 r u1 u2) mw' bias bufs = .ok ss := by
    unfold progStrips
    have hc0 : (prepDec d c0 c1 c2 r u1 u2).components[0]? = some c0 := rfl
    have hc1 : (prepDec d c0 c1 c2 r u1 u2).components[1]? = some { c1 with upSampler := u1 } := rfl
    rw [hc0]
    dsimp only
    rw [hchunk, n0, if_neg (by rintro (h | h); exact hch0 3 (by decide) h; exact p0 h)]
    rw [if_pos (by show d.inputColorspace.numComponents = 3; rw [R.inCs]; rfl)]
    rw [hc1]
    dsimp only
    rw [n1, if_neg p1, hlen]
  have hps' : progStrips (toCs Y () (prepDec d c0 c1 c2 r u1 u2)) mw' bias bufs = .ok ss := by
    unfold progStrips
    have hc0 : (toCs Y () (prepDec d c0 c1 c2 r u1 u2)).components[0]? = some c0 := rfl
    have hc1 : (toCs Y () (prepDec d c0 c1 c2 r u1 u2)).components[1]? = some { c1 with upSampler := u1 } := rfl
    rw [hc0]
    dsimp only
    rw [hchunk', n0, if_neg (by rintro (h | h); exact hch0 _ hnp h; exact p0 h)]
    rw [if_pos (by show d.inputColorspace.numComponents = 3; rw [R.inCs]; rfl)]
    rw [hc1]
    dsimp only
    rw [n1, if_neg p1, hlen', hratio]
  have hjobs : List.Forall₂ (fun o o' => ∃ a b, o = .ok a ∧ o' = .ok b ∧ Rel a b)
      (ss.map fun s => postProcess d.idctFn d.colorFn [c0, { c1 with upSampler := u1 }, { c2 with upSampler := u2 }]
        d.inputColorspace d.options.getOutColorspace d.info.width.toNat s
          (List.replicate (chunkLen (prepDec d c0 c1 c2 r u1 u2)) 0))
      (ss.map fun s => postProcess d.idctFn d.colorFn [c0, { c1 with upSampler := u1 }, { c2 with upSampler := u2 }]
        d.inputColorspace (toCs Y () d).options.getOutColorspace d.info.width.toNat s
          (List.replicate (chunkLen (toCs Y () (prepDec d c0 c1 c2 r u1 u2))) 0)) := by
    rw [List.forall₂_map_left_iff, List.forall₂_map_right_iff, List.forall₂_same]
    intro s hs
    obtain ⟨⟨y, cb, cr⟩, hmem, rfl⟩ := List.mem_map.1 hs
    have hz := List.of_mem_zip (List.mem_of_mem_take hmem)
    have hz2 := List.of_mem_zip hz.2
    have l0 := chunk_length hz.1
    have l1 := chunk_length hz2.1
    have l2 := chunk_length hz2.2
    rw [R.inCs, F.width, hchunk, hchunk', hcsY, hout']
    refine hj r u1 u2 _ _ hu ⟨y, rfl, l0⟩ ?_ fun _ _ => rfl
    rintro i (rfl | rfl)
    · exact ⟨cb, rfl, l1⟩
    · exact ⟨cr, rfl, l2⟩
  obtain ⟨p, p', hp, ep, ep'⟩ := joinPool_related hjobs
  refine Or.inr ⟨p, p', hp, ?_, ?_⟩
  · unfold finishProgressive
    rw [M.bind_ok hsetup]
    dsimp only
    rw [M.bind_ok (getDec_apply _ _), hps]
    show ((M.ofOut (joinPool (.ok ()) (ss.map fun s => postProcess d.idctFn d.colorFn
      [c0, { c1 with upSampler := u1 }, { c2 with upSampler := u2 }]
        d.inputColorspace d.options.getOutColorspace d.info.width.toNat s
          (List.replicate (chunkLen (prepDec d c0 c1 c2 r u1 u2)) 0))) >>= _ : M H (List UInt8)) _).1 = _
    rw [ep, (joinPool_oks p).1]
    rfl
  · unfold finishProgressive
    rw [M.bind_ok hsetup']
    dsimp only
    rw [M.bind_ok (getDec_apply _ _), hps']
    show ((M.ofOut (joinPool (.ok ()) (ss.map fun s => postProcess d.idctFn d.colorFn
      [c0, { c1 with upSampler := u1 }, { c2 with upSampler := u2 }]
        d.inputColorspace (toCs Y () d).options.getOutColorspace d.info.width.toNat s
          (List.replicate (chunkLen (toCs Y () (prepDec d c0 c1 c2 r u1 u2))) 0))) >>= _ : M H (List UInt8)) _).1 = _
    rw [ep', (joinPool_oks p').1]
    rfl

/-- The end of a progressive image whose sampling factors are too large. -/
theorem finish_large (F : Frame d w h fh fv) (hlarge : ¬ (fh ≤ 2 ∧ fv ≤ 2))
    {Rel : List UInt8 → List UInt8 → Prop} (bufs : List (List I16)) (n : Nat) (rd : List UInt8) :
    Related d Y Rel (finishProgressive bufs n ⟨d, rd⟩).1 (finishProgressive bufs n ⟨toCs Y () d, rd⟩).1 := by
  obtain ⟨c0, cs, ec, -⟩ := F.comps
  have hu := wp_setUpsampling (h := ⟨d, rd⟩) (by dsimp only; rw [ec]; simp)
  unfold M.wp at hu
  obtain ⟨b, e⟩ := cs_setUpsampling (Y := Y) () ⟨d, rd⟩
  have e' : liftDec Decoder.setUpsampling (⟨toCs Y () d, rd⟩ : H) = _ := e
  rcases hx : liftDec Decoder.setUpsampling (⟨d, rd⟩ : H) with ⟨_ | er | _ | _, s⟩
  · rw [hx] at hu
    exfalso
    rcases setUpsampling_ok hu.2 with ⟨a, b, -⟩ | ⟨r, u, c, cs, hs, -, -⟩
    · dsimp only at a b
      rw [F.hMax] at a
      rw [F.vMax] at b
      omega
    · dsimp only at hs
      rw [F.hMax, F.vMax] at hs
      unfold Sampling at hs
      omega
  · rw [hx] at e'
    refine Or.inl ⟨er, ?_, ?_⟩
    · unfold finishProgressive
      rw [M.bind_err (show finishSetup n ⟨d, rd⟩ = (.err er, s) from by
        unfold finishSetup
        rw [M.bind_err hx])]
    · unfold finishProgressive
      rw [M.bind_err (show finishSetup n ⟨toCs Y () d, rd⟩ = (.err er, _) from by
        unfold finishSetup
        rw [M.bind_err e'])]
  · rw [hx] at hu
    exact hu.elim
  · rw [hx] at hu
    exact hu.elim

theorem progressive_finish (F : Frame d w h fh fv)
    (hcn : d.components.length = d.inputColorspace.numComponents) (K : Steady d d) (h3 : Three d)
    {Rel : List UInt8 → List UInt8 → Prop}
    (hfin : ∀ d', Steady d d' → ∀ bufs rd, Related d' Y Rel (finishProgressive bufs (d'.mcuX * 64) ⟨d', rd⟩).1
      (finishProgressive bufs (d'.mcuX * 64) ⟨toCs Y () d', rd⟩).1) (rd : List UInt8) :
    Related d Y Rel (decodeProgressive ⟨d, rd⟩).1 (decodeProgressive ⟨toCs Y () d, rd⟩).1 := by
  have hm : 0 < d.hMax := by rw [F.hMax]; exact F.fpos.1
  unfold decodeProgressive
  rw [M.bind_ok (getDec_apply _ _), M.bind_ok (getDec_apply _ _)]
  have hcc : (toCs Y () d).checkComponentDimensions = d.checkComponentDimensions := rfl
  have hpa : progAlloc (toCs Y () d) = progAlloc d := rfl
  rw [hcc, hpa]
  rcases checkComponentDimensions_returns hm with ⟨a, e⟩ | ⟨er, e⟩
  swap
  · rw [e]
    exact Or.inl ⟨er, rfl, rfl⟩
  rw [e]
  obtain ⟨⟨mw, bufs⟩, ha⟩ := progAlloc_returns (d := d) (by rw [hcn])
  obtain ⟨rfl, hb, P⟩ := progAlloc_fits F hcn ha
  rw [ha]
  show Related d Y Rel ((runScans bufs >>= fun b => finishProgressive b (d.mcuX * 64)) ⟨d, rd⟩).1
    ((runScans bufs >>= fun b => finishProgressive b (d.mcuX * 64)) ⟨toCs Y () d, rd⟩).1
  have hr := wp_runScans K P hm h3 hb rd
  obtain ⟨b0, es⟩ := cs_runScans (Y := Y) bufs () ⟨d, rd⟩
  have e' : runScans bufs ⟨toCs Y () d, rd⟩ = ((runScans bufs ⟨d, rd⟩).1, csH Y () (runScans bufs ⟨d, rd⟩).2) := es
  unfold M.wp at hr
  rcases hx : runScans bufs ⟨d, rd⟩ with ⟨_ | er | _ | _, s⟩
  · rename_i bufs'
    rw [hx] at hr e'
    obtain ⟨K', hb'⟩ := hr
    rw [M.bind_ok hx, M.bind_ok e']
    obtain ⟨d', rd'⟩ := s
    dsimp only at K'
    have hmx : d'.mcuX = d.mcuX := by rw [K'.rest]
    have := hfin d' K' bufs' rd'
    rw [hmx] at this
    have b1 : outBufferLen d' = outBufferLen d := by rw [K'.rest]; rfl
    have b2 : keepLen d' = keepLen d := by rw [K'.rest]; rfl
    have b3 : outBufferLen (toCs Y () d') = outBufferLen (toCs Y () d) := by rw [K'.rest]; rfl
    have b4 : keepLen (toCs Y () d') = keepLen (toCs Y () d) := by rw [K'.rest]; rfl
    unfold Related at this ⊢
    rw [b1, b2, b3, b4] at this
    exact this
  · rw [hx] at e'
    rw [M.bind_err hx, M.bind_err e']
    exact Or.inl ⟨er, rfl, rfl⟩
  · rw [hx] at hr
    exact hr.elim
  · rw [hx] at hr
    exact hr.elim

theorem progressive_related {c0 c1 c2 : Component} (R : ColourFrame d c0 c1 c2 w h fh fv) (K : Steady d d)
    (h3 : Three d) (hout : d.options.outColorspace = .ycbcr) {Rel : List UInt8 → List UInt8 → Prop}
    (hj : ∀ d' c0' c1' c2', d'.cpu = d.cpu → d'.colorFn = d.colorFn → d'.idctFn = d.idctFn →
      ColourFrame d' c0' c1' c2' w h fh fv → JobRel d' c0' c1' c2' w fh fv Y Rel) (rd : List UInt8) :
    Related d Y Rel (decodeProgressive ⟨d, rd⟩).1 (decodeProgressive ⟨toCs Y () d, rd⟩).1 := by
  have F := R.frame
  refine progressive_finish F (by rw [R.comps, R.inCs]; rfl) K h3 ?_ rd
  intro d' K' bufs' rd'
  have F' := F.steady K'
  have hal := K'.comps
  rw [R.comps] at hal
  obtain ⟨c0', c1', c2', ec⟩ : ∃ c0' c1' c2', d'.components = [c0', c1', c2'] := by
    have := hal.length_eq
    match hd : d'.components, this with
    | [a, b, c], _ => exact ⟨a, b, c, rfl⟩
  have R' : ColourFrame d' c0' c1' c2' w h fh fv :=
    ⟨F', ec, by rw [K'.dims, R.dims], by rw [K'.inCs, R.inCs], R.fh2, R.fv2, R.wLe, R.hLe⟩
  exact finish_related R' (by rw [K'.opts]; exact hout)
    (hj d' c0' c1' c2' (by rw [K'.rest]) (by rw [K'.rest]) (by rw [K'.rest]) R') bufs' rd'

/-- Baseline images whose sampling factors are too large. -/
theorem baseline_large (F : Frame d w h fh fv) (hin : d.inputColorspace = .ycbcr)
    (hcn : d.inputColorspace.numComponents ≤ d.components.length)
    (hlarge : ¬ (fh ≤ 2 ∧ fv ≤ 2)) {Rel : List UInt8 → List UInt8 → Prop} (rd : List UInt8) :
    Related d Y Rel (decodeBaseline ⟨d, rd⟩).1 (decodeBaseline ⟨toCs Y () d, rd⟩).1 := by
  have hret := wp_baselineSetup_returns F hcn rd
  have hfol := follow_baselineSetup (Y := Y) ⟨d, rd⟩
  unfold decodeBaseline
  rcases hs : baselineSetup ⟨d, rd⟩ with ⟨s | e | p | _, h'⟩
  · have hfac : ∀ f, factor d f = f := by
      intro f
      unfold factor
      rw [hin, if_neg (by decide)]
    obtain ⟨G, -⟩ := M.wp_ok (wpT_baselineSetup_frame (s := ⟨d, rd⟩) F) hs
    dsimp only at G
    rw [hfac, hfac] at G
    exfalso
    rcases G.counts with ⟨a, b, -⟩ | ⟨a, b, -⟩ | ⟨a, b, -⟩ | ⟨a, b, -⟩ <;> omega
  · rw [hs] at hfol
    have hfol' : baselineSetup ⟨toCs Y () d, rd⟩ = (.err e, csH Y () h') := hfol
    rw [hfol']
    exact Or.inl ⟨e, rfl, rfl⟩
  · unfold M.wp at hret
    rw [hs] at hret
    exact hret.elim
  · unfold M.wp at hret
    rw [hs] at hret
    exact hret.elim
end

end Zune
