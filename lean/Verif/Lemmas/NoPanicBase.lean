import Verif.Lemmas.NoPanicJob
import Verif.Props.Scan
/-! Baseline images with one or three components do not panic. -/

namespace Zune
open M (wp wp_bind wp_mono wp_pure wp_throw wp_idx wp_idx_of wp_okOr wp_ofOut wp_failIf wp_ite_of
  wp_diverge wp_panic wp_unwrap wp_get wp_modify)
open Spec

namespace Spec

/-- A frame with one grayscale component or with the three components of YCbCr. -/
structure Usual (d : Decoder) (w h fh fv : Nat) : Prop where
  frame : Frame d w h fh fv
  wLe : w ≤ 65527
  hLe : h ≤ 65527
  kind : (∃ c0 c1 c2, d.components = [c0, c1, c2] ∧ d.inputColorspace = .ycbcr) ∨
    (∃ c, d.components = [c] ∧ d.inputColorspace = .grayscale ∧
      d.options.getOutColorspace = .grayscale)

end Spec

theorem joinPool_returns {r : Out Unit} (hr : M.Returns r) {jobs : List (Out (List UInt8))}
    (hj : ∀ j ∈ jobs, j.isOk = true) : M.Returns (joinPool r jobs) := by
  have hu : jobs.any Out.isUnsound = false := by
    rw [List.any_eq_false]
    intro j hm
    have := hj j hm
    cases j with
    | ok a => exact fun h => by cases h
    | _ => cases this
  have ha : jobs.all Out.isOk = true := List.all_eq_true.2 hj
  unfold joinPool
  rw [hu, ha]
  rcases hr with ⟨⟨⟩, rfl⟩ | ⟨e, rfl⟩
  · have hc : ∀ l : List (Out (List UInt8)), (∀ j ∈ l, j.isOk = true) → ∃ p, Out.collect l = .ok p := by
      intro l hl
      induction l with
      | nil => exact ⟨_, rfl⟩
      | cons a l ih =>
        obtain ⟨p, hp⟩ := ih fun j hm => hl j (by simp [hm])
        have h1 := hl a (by simp)
        cases a with
        | ok v => exact ⟨v :: p, by unfold Out.collect; rw [hp]; rfl⟩
        | _ => cases h1
    obtain ⟨p, hp⟩ := hc jobs hj
    exact Or.inl ⟨p, by simp [hp]⟩
  · exact Or.inr ⟨e, by simp⟩

theorem returns_map {α β : Type} {o : Out α} (f : α → β) (h : M.Returns o) : M.Returns (o.map f) := by
  rcases h with ⟨a, rfl⟩ | ⟨e, rfl⟩
  · exact Or.inl ⟨_, rfl⟩
  · exact Or.inr ⟨_, rfl⟩

theorem checkDims_returns (cw : Nat) : ∀ l, M.Returns (checkDims cw l)
  | [] => Or.inl ⟨_, rfl⟩
  | c :: cs => by
    unfold checkDims
    have := checkDims_returns cw cs
    split
    · exact this
    · split
      · exact Or.inr ⟨_, rfl⟩
      · split
        · exact Or.inr ⟨_, rfl⟩
        · exact this

theorem checkTables_returns {d : Decoder} (hc : d.inputColorspace.numComponents ≤ d.components.length) :
    M.Returns d.checkTables := by
  unfold Decoder.checkTables
  have : ∀ l : List Nat, (∀ i ∈ l, i < d.components.length) →
      M.Returns (Out.fold (fun _ i => checkTable d i) () l) := by
    intro l hl
    induction l with
    | nil => exact Or.inl ⟨_, rfl⟩
    | cons i l ih =>
      have ih := ih fun j hj => hl j (by simp [hj])
      obtain ⟨c, hi⟩ : ∃ c, d.components[i]? = some c := ⟨_, List.getElem?_eq_getElem (hl i (by simp))⟩
      have h1 : M.Returns (checkTable d i) := by
        unfold checkTable
        rw [hi]
        dsimp only
        split
        · split
          · exact Or.inl ⟨_, rfl⟩
          · exact Or.inr ⟨_, rfl⟩
        · exact Or.inr ⟨_, rfl⟩
      unfold Out.fold
      rcases h1 with ⟨a, e⟩ | ⟨a, e⟩
      · rw [e]
        exact ih
      · rw [e]
        exact Or.inr ⟨_, rfl⟩
  refine this _ fun i hi => ?_
  rw [List.mem_range] at hi
  omega

theorem wp_ofOut_returns {σ α : Type} {o : Out α} {Q : α → σ → Prop} {E : DecodeErr → σ → Prop} {s : σ}
    (h : M.Returns o) (hq : ∀ a, o = .ok a → Q a s) (he : ∀ e, E e s) :
    wp False False (M.ofOut o) Q E s := by
  rw [wp_ofOut]
  rcases h with ⟨a, rfl⟩ | ⟨e, rfl⟩
  · exact ⟨fun b hb => (hq b hb), fun _ e => (by cases e), fun _ e => (by cases e), fun e => (by cases e)⟩
  · exact ⟨fun _ e => (by cases e), fun _ _ => he _, fun _ e => (by cases e), fun e => (by cases e)⟩

theorem checkComponentDimensions_returns {d : Decoder} (h : 0 < d.hMax) :
    M.Returns d.checkComponentDimensions := by
  unfold Decoder.checkComponentDimensions
  split
  · exact Or.inr ⟨_, rfl⟩
  · rw [if_neg (by omega)]
    exact checkDims_returns _ _

theorem wp_setUpsampling {h : H} (hne : h.dec.components ≠ []) :
    wp False False (liftDec Decoder.setUpsampling)
      (fun _ h' => h'.rd = h.rd ∧ Decoder.setUpsampling h.dec = (.ok (), h'.dec)) (fun _ _ => True) h := by
  unfold wp liftDec
  have hnd := setUpsampling_ne_diverge h.dec
  have hnp : ∀ p, (Decoder.setUpsampling h.dec).1 ≠ .panic p := by
    intro p
    obtain ⟨c, cs, e⟩ := List.exists_cons_of_ne_nil hne
    unfold Decoder.setUpsampling setTailUpSampler
    dsimp only
    rw [e]
    dsimp only
    repeat' split
    all_goals simp
  rcases hd : Decoder.setUpsampling h.dec with ⟨_ | _ | _ | _, d'⟩ <;> rw [hd] at hnd hnp
  · exact ⟨rfl, rfl⟩
  · trivial
  · exact absurd rfl (hnp _)
  · exact absurd rfl hnd

/-- The preparations do not panic. -/
theorem wp_baselineSetup_returns {d : Decoder} {w h fh fv : Nat} (F : Frame d w h fh fv)
    (hc : d.inputColorspace.numComponents ≤ d.components.length) (rd : List UInt8) :
    wp False False baselineSetup (fun _ _ => d.checkTables = .ok ()) (fun _ _ => True) ⟨d, rd⟩ := by
  have hf := F.fpos
  obtain ⟨c, cs, hcs, -⟩ := F.comps
  have hne : d.components ≠ [] := by rw [hcs]; simp
  have hpos : ∀ c : ColorSpace, 0 < c.numComponents := numComponents_pos
  have hfin : ∀ (m : Nat × Nat × Nat) (d' : Decoder), d'.components ≠ [] → chunkLen d' ≠ 0 →
      d.checkTables = .ok () → wp False False (do
        let d ← getDec
        let c0 ← M.idx d.components 0
        let s := mkScan m d c0
        if s.chunk = 0 then M.panic .zero else pure s) (fun _ _ => d.checkTables = .ok ())
          (fun _ _ => True) ⟨d', rd⟩ := by
    intro m d' hne' hch ht
    rw [wp_bind, wp_getDec, wp_bind]
    refine wp_idx_of (List.length_pos_of_ne_nil hne') fun c0 _ => ?_
    dsimp only
    refine wp_ite_of (fun h0 => hch h0) fun _ => ht
  have hchunk : ∀ d' : Decoder, d'.info = d.info → 0 < d'.hMax → 0 < d'.vMax → chunkLen d' ≠ 0 := by
    intro d' e1 e2 e3
    unfold chunkLen
    rw [e1, F.width]
    have h0 := F.wpos
    have hn := hpos d'.options.getOutColorspace
    positivity
  unfold baselineSetup
  rw [wp_bind, wp_getDec, wp_bind]
  refine wp_ofOut_returns (checkComponentDimensions_returns (by rw [F.hMax]; exact hf.1))
    (fun _ _ => ?_) fun _ => trivial
  rw [wp_bind]
  refine wp_ofOut_returns (checkTables_returns hc) (fun _ ht => ?_) fun _ => trivial
  have ht' : d.checkTables = .ok () := ht
  rw [wp_bind]
  have hmc : wp False False mcuCounts (fun _ s' => s'.rd = rd ∧ s'.dec.components ≠ [] ∧
      s'.dec.info = d.info ∧ s'.dec.hMax = fh ∧ s'.dec.vMax = fv) (fun _ _ => True) ⟨d, rd⟩ := by
    unfold mcuCounts
    rw [wp_bind, wp_getDec]
    refine wp_ite_of (fun _ => ?_) fun _ => ⟨rfl, hne, rfl, F.hMax, F.vMax⟩
    rw [wp_bind]
    refine wp_mono (wp_setUpsampling hne) ?_ fun _ _ h => h
    rintro _ h' ⟨h1, h2⟩
    have hg : h'.rd = rd ∧ h'.dec.components ≠ [] ∧
        h'.dec.info = d.info ∧ h'.dec.hMax = fh ∧ h'.dec.vMax = fv := by
      rcases setUpsampling_ok h2 with ⟨-, -, e⟩ | ⟨r, u, c, cs, -, -, e⟩
      · rw [e]
        exact ⟨h1, hne, rfl, F.hMax, F.vMax⟩
      · rw [e]
        exact ⟨h1, by simp, rfl, F.hMax, F.vMax⟩
    rw [wp_bind, wp_getDec]
    exact wp_ite_of (fun _ => hg) fun _ => wp_ite_of (fun _ => hg) fun _ => hg
  refine wp_mono hmc ?_ fun _ _ h => h
  rintro m ⟨d1, rd1⟩ ⟨hrd, h1, h2, h3, h4⟩
  dsimp only at hrd h1 h2 h3 h4
  subst hrd
  rw [wp_bind]
  unfold grayReset
  rw [wp_bind, wp_getDec]
  refine wp_ite_of (fun _ => ?_) fun _ => ?_
  · refine wp_ite_of (fun _ => trivial) fun _ => ?_
    refine wp_ite_of (fun h0 => ?_) fun _ => ?_
    · exact h1 (List.length_eq_zero_iff.1 h0)
    · rw [wp_bind, wp_modDec, wp_pure]
      refine hfin _ _ ?_ (hchunk _ h2 Nat.one_pos Nat.one_pos) ht'
      dsimp only
      intro h0
      have := congrArg List.length h0
      rw [List.length_modify] at this
      exact h1 (List.length_eq_zero_iff.1 this)
  · rw [wp_pure]
    exact hfin _ _ h1 (hchunk _ h2 (by rw [h3]; exact hf.1) (by rw [h4]; exact hf.2)) ht'

/-- What the loops of a baseline scan need. -/
structure Started (s : Scan) (d1 : Decoder) : Prop where
  kept : Steady d1 d1
  three : Three d1
  cs : d1.inputColorspace.numComponents ≤ d1.components.length
  units : UnitsFit s d1
  jobs : StripJobs s d1
  room : s.mcuHeight ≤ s.outLen / s.chunk

theorem units_fit {s : Scan} {d : Decoder} {w h fh fv : Nat} (G : Geometry s w h fh fv)
    (hc : s.comps = d.components) : UnitsFit s d := by
  intro pos c hpos v j vs hs h1 h2 h3 h4
  obtain ⟨hin, -⟩ := places_component G (c := c) (by rw [hc]; exact List.mem_of_getElem? hpos)
  obtain ⟨k, hk, e⟩ := hin (v, j, vs, hs) ⟨h1, h2, h3, h4⟩
  dsimp only at e
  rw [e]
  have : 64 * (k + 1) ≤ 64 * (s.mcuWidth * c.verticalSample * c.horizontalSample * s.bias) :=
    Nat.mul_le_mul_left _ hk
  calc _ = 64 * (k + 1) := by ring
    _ ≤ _ := this
    _ = _ := by ring

theorem Steady.self {d d1 : Decoder} (K : Steady d d) (h1 : d1.qtTables = d.qtTables)
    (h2 : d1.dcTables = d.dcTables) (h3 : d1.acTables = d.acTables) (h4 : d1.zOrder = d.zOrder)
    (h5 : d1.specStart = d.specStart) (h6 : d1.specEnd = d.specEnd) : Steady d1 d1 :=
  ⟨rfl, by rw [h1]; exact K.qt, K.tables.of_eq h2 h3, alike_refl _, by rw [h4]; exact K.z,
    by rw [h5, h6]; exact K.spec⟩

section
variable {d : Decoder} {w h fh fv : Nat}

theorem started_colour {c0 c1 c2 : Component} (R : ColourFrame d c0 c1 c2 w h fh fv) (K : Steady d d)
    (h3 : Three d) (hf3 : d.colorFn.Three) (hconv : Converts d.colorFn d.options.getOutColorspace w fh fv)
    (hfit : fv = 1 ∨ 7 * w ≤ 136 * h + 64) (ht : d.checkTables = .ok ()) {rd : List UInt8} {s : Scan}
    {h' : H} (hs : baselineSetup ⟨d, rd⟩ = (.ok s, h')) : Started s h'.dec ∧ h'.rd = rd := by
  obtain ⟨m, r, u1, u2, e, G, hu, -⟩ := colour_setup_of R ht rd
  rw [hs] at e
  cases e
  refine ⟨?_, rfl⟩
  obtain ⟨q1, q2, q3, q4, q5⟩ := R.shape
  have F := R.frame
  have hf := F.fpos
  have hX : d.mcuX = mcuCols w fh := F.mcuX
  have hmcu := (strip_mcus G R.wLe).1
  have hchunk : chunkLen (prepDec d c0 c1 c2 r u1 u2) =
      8 * (fh * fv) * (w * d.options.getOutColorspace.numComponents) := by
    show d.info.width.toNat * d.options.getOutColorspace.numComponents * 8 * d.hMax * d.vMax = _
    rw [F.width, F.hMax, F.vMax]
    ring
  refine ⟨K.self rfl rfl rfl rfl rfl rfl, ⟨?_, ?_⟩, ?_, units_fit G rfl, ?_, ?_⟩
  · show 3 ≤ 3
    exact Nat.le_refl _
  · have := h3.count
    rw [R.comps] at this
    exact this
  · show d.inputColorspace.numComponents ≤ 3
    rw [R.inCs]
    decide
  · rintro temp ⟨-, hb⟩
    show (postProcess d.idctFn d.colorFn [c0, { c1 with upSampler := u1 }, { c2 with upSampler := u2 }]
      d.inputColorspace d.options.getOutColorspace d.info.width.toNat temp
      (List.replicate (chunkLen (prepDec d c0 c1 c2 r u1 u2)) 0)).isOk = true
    have hbuf : ∀ i c, [c0, { c1 with upSampler := u1 }, { c2 with upSampler := u2 }][i]? = some c →
        i < d.options.getOutColorspace.numComponents → ∃ b, temp[i]? = some b ∧
          b.length = 64 * (c.verticalSample * c.horizontalSample) * (fh * mcuCols w fh) := by
      intro i c hi hlt
      obtain ⟨b, b1, b2⟩ := hb i c hi hlt
      refine ⟨b, b1, ?_⟩
      rw [b2, ← hmcu]
      ring
    rw [R.inCs, F.width, hchunk]
    refine colour_job_ok (cpu := d.cpu) (un := d.options.useUnsafe) (r := r) hf3 (X := mcuCols w fh) rfl
      ⟨hf.1, R.fh2⟩ ⟨hf.2, R.fv2⟩ F.wpos q2 q3 (by rw [q4, hX]; ring) ⟨?_, ?_⟩ hu hconv ?_ ?_
    · show c1.widthStride = _
      rw [(q5 c1 (by simp)).2.2.2, hX]
      ring
    · show c2.widthStride = _
      rw [(q5 c2 (by simp)).2.2.2, hX]
      ring
    · obtain ⟨b, b1, b2⟩ := hbuf 0 c0 rfl (numComponents_pos _)
      refine ⟨b, b1, ?_⟩
      rw [b2, q2, q3]
      ring
    · intro i hi hlt
      rcases hi with rfl | rfl
      · obtain ⟨b, b1, b2⟩ := hbuf 1 _ rfl hlt
        refine ⟨b, b1, ?_⟩
        obtain ⟨-, a1, a2, -⟩ := q5 c1 (by simp)
        rw [b2, a1, a2]
        ring
      · obtain ⟨b, b1, b2⟩ := hbuf 2 _ rfl hlt
        refine ⟨b, b1, ?_⟩
        obtain ⟨-, a1, a2, -⟩ := q5 c2 (by simp)
        rw [b2, a1, a2]
        ring
  · rw [Nat.le_div_iff_mul_le (by
      show 0 < chunkLen (prepDec d c0 c1 c2 r u1 u2)
      rw [hchunk]
      have := F.wpos
      have := numComponents_pos d.options.getOutColorspace
      have := hf.1
      have := hf.2
      positivity)]
    exact room_scan G R.wLe R.hLe hfit

theorem wpT_graySetup {c : Component} (F : Frame d w h fh fv) (hwl : w ≤ 65527)
    (hcs : d.components = [c]) (hin : d.inputColorspace = .grayscale) (rd : List UInt8) :
    wpT baselineSetup (fun _ h' => ∃ c', h'.dec.components = [c'] ∧
      c'.widthStride = 8 * ((w + 7) / 8)) ⟨d, rd⟩ := by
  have hb : blocks8 d.info.width = (w + 7) / 8 := by
    rw [blocks8_eq (by rw [F.width]; exact hwl), F.width]
  unfold baselineSetup
  rw [wpT, wp_bind, wp_getDec, wp_bind]
  refine wpT_ofOut (fun _ _ => ?_) (checkComponentDimensions_ne_diverge _)
  rw [wp_bind]
  refine wpT_ofOut (fun _ _ => ?_) (checkTables_ne_diverge _)
  rw [wp_bind]
  have hmc : wpT mcuCounts (fun _ h1 => h1.dec.components = [c] ∧ h1.dec.info = d.info ∧
      h1.dec.interleaved = d.interleaved ∧ h1.dec.inputColorspace = d.inputColorspace) ⟨d, rd⟩ := by
    unfold mcuCounts
    rw [wpT, wp_bind, wp_getDec]
    refine wp_ite_of (fun _ => ?_) fun _ => ⟨hcs, rfl, rfl, rfl⟩
    rw [wp_bind]
    refine wpT_mono wpT_setUpsampling ?_
    rintro _ h1 ⟨-, h2⟩
    rw [wp_bind, wp_getDec]
    have hg : h1.dec.components = [c] ∧ h1.dec.info = d.info ∧
        h1.dec.interleaved = d.interleaved ∧ h1.dec.inputColorspace = d.inputColorspace := by
      rcases setUpsampling_ok h2 with ⟨-, -, e⟩ | ⟨r, u, c', cs, -, e1, e⟩
      · rw [e]
        exact ⟨hcs, rfl, rfl, rfl⟩
      · dsimp only at e e1
        rw [hcs] at e1
        obtain ⟨rfl, rfl⟩ := List.cons.inj e1
        rw [e]
        exact ⟨rfl, rfl, rfl, rfl⟩
    exact wp_ite_of (fun _ => hg) fun _ => wp_ite_of (fun _ => hg) fun _ => hg
  refine wpT_mono hmc ?_
  rintro m h1 ⟨a1, a2, a3, a4⟩
  rw [wp_bind]
  have hgr : wpT (grayReset m) (fun _ h' => ∃ c', h'.dec.components = [c'] ∧
      c'.widthStride = 8 * ((w + 7) / 8)) h1 := by
    unfold grayReset
    rw [wpT, wp_bind, wp_getDec]
    refine wp_ite_of (fun _ => ?_) fun hn => ?_
    · refine wp_ite_of (fun _ => trivial) fun _ => ?_
      refine wp_ite_of (fun _ => trivial) fun _ => ?_
      rw [wp_bind, wp_modDec, wp_pure]
      dsimp only
      rw [a1, a2, hb]
      exact ⟨_, rfl, Nat.mul_comm _ _⟩
    · rw [wp_pure]
      refine ⟨c, a1, ?_⟩
      have hi : d.interleaved = false := by
        by_contra hi
        exact hn ⟨by rw [a4]; exact hin, by rw [a3]; simpa using hi⟩
      have h11 := F.inter
      rw [hi] at h11
      have h11 : fh = 1 ∧ fv = 1 := by simpa using h11.symm
      obtain ⟨c0, cs, e, -, -, -, e4, -⟩ := F.comps
      rw [hcs] at e
      obtain ⟨rfl, rfl⟩ := List.cons.inj e
      rw [e4, F.mcuX, h11.1]
      omega
  refine wpT_mono hgr ?_
  rintro m' h2 hc'
  rw [wp_bind, wp_getDec, wp_bind]
  refine wpT_idx fun c0 hc0 => ?_
  dsimp only
  exact wp_ite_of (fun _ => trivial) fun hc => hc'

theorem started_gray {c : Component} (F : Frame d w h fh fv) (hwl : w ≤ 65527) (hhl : h ≤ 65527)
    (hcs : d.components = [c]) (hin : d.inputColorspace = .grayscale)
    (hout : d.options.getOutColorspace = .grayscale) (K : Steady d d)
    (h3 : Three d) (hconv : Converts d.colorFn d.options.getOutColorspace w 1 1)
    {rd : List UInt8} {s : Scan}
    {h' : H} (hs : baselineSetup ⟨d, rd⟩ = (.ok s, h')) : Started s h'.dec ∧ h'.rd = rd := by
  have hfac : ∀ f, factor d f = 1 := by
    intro f
    unfold factor
    rw [if_pos hin]
  obtain ⟨G, g1, g2, g3⟩ := M.wp_ok (wpT_baselineSetup_frame (s := ⟨d, rd⟩) F) hs
  dsimp only at G g3
  rw [hfac, hfac] at G
  obtain ⟨k1, k2, k3, m, cc, k4⟩ := M.wp_ok (wpT_baselineSetup (h := ⟨d, rd⟩)) hs
  obtain ⟨c', hc', hst⟩ := M.wp_ok (wpT_graySetup F hwl hcs hin rd) hs
  dsimp only at k2
  refine ⟨?_, k1⟩
  have hin' : h'.dec.inputColorspace = .grayscale := by rw [k2.rest]; exact hin
  have hout' : h'.dec.options.getOutColorspace = .grayscale := by
    rcases k2.opts with e | ⟨-, e⟩
    · rw [e]; exact hout
    · rw [e]; rfl
  have hcomps : s.comps = [c'] := by rw [g1, hc']
  obtain ⟨c0, cs, e, -, e2, e3, -⟩ := G.comps
  rw [hcomps] at e
  obtain ⟨rfl, rfl⟩ := List.cons.inj e
  refine ⟨K.self (by rw [k2.rest]) (by rw [k2.rest]) (by rw [k2.rest]) (by rw [k2.rest])
    (by rw [k2.rest]) (by rw [k2.rest]), ⟨by rw [hc']; exact (by decide : 1 ≤ 3), ?_⟩, by rw [hin', hc']; exact Nat.le_refl 1,
    units_fit G g1, ?_, ?_⟩
  · have := h3.count
    rw [k2.comps, k2.rest]
    exact this
  · rintro temp ⟨-, hb⟩
    obtain ⟨b, b1, b2⟩ := hb 0 c' (by rw [hc']; rfl) (numComponents_pos _)
    have hinS : s.inCs = .grayscale := by rw [k4]; exact hin'
    have houtS : s.outCs = .grayscale := by rw [g2]; exact hout'
    have hmw : s.mcuWidth = (w + 7) / 8 ∧ s.bias = 1 := by
      rcases G.counts with ⟨-, -, a, -, b, -⟩ | ⟨x, -⟩ | ⟨-, x, -⟩ | ⟨x, -⟩
      · exact ⟨by rw [a]; omega, b⟩
      all_goals cases x
    have hw0 := F.wpos
    have hfit := hconv.1 hout
    rw [hcomps, hinS, houtS, G.width]
    refine gray_job_ok (Or.inr rfl) (b := (w + 7) / 8) (by omega) (by rw [e2, e3]; decide) rfl hst
      (by omega) hw0 ?_ b1 ?_ ?_
    · rw [e2, e3]
      have hm : mcuCols w 1 = (w + 7) / 8 := rfl
      rw [hm] at hfit
      omega
    · rw [b2, e2, e3, hmw.1, hmw.2]
      omega
    · rw [List.length_replicate, G.chunk, houtS, e2, e3]
      show w * 1 * 8 * 1 * 1 = _
      omega
  · rw [Nat.le_div_iff_mul_le (Nat.pos_of_ne_zero k3)]
    exact room_scan G hwl hhl (Or.inl rfl)

/-- A baseline scan returns a result or an error. -/
theorem baseline_returns (U : Usual d w h fh fv) (K : Steady d d) (h3 : Three d) (hf3 : d.colorFn.Three)
    (hconv : Converts d.colorFn d.options.getOutColorspace w (factor d fh) (factor d fv))
    (hfit : factor d fv = 1 ∨ 7 * w ≤ 136 * h + 64) {rd : List UInt8} (hn : NoSof rd) :
    M.Returns (decodeBaseline ⟨d, rd⟩).1 := by
  have hcn : d.inputColorspace.numComponents ≤ d.components.length := by
    rcases U.kind with ⟨c0, c1, c2, e1, e2⟩ | ⟨c, e1, e2, -⟩ <;> rw [e1, e2] <;> exact Nat.le_refl _
  have hret := wp_baselineSetup_returns U.frame hcn rd
  unfold decodeBaseline
  rcases hs : baselineSetup ⟨d, rd⟩ with ⟨s | e | p | _, h'⟩
  · have ht := M.wp_ok hret hs
    have hst : Started s h'.dec ∧ h'.rd = rd := by
      rcases U.kind with ⟨c0, c1, c2, e1, e2⟩ | ⟨c, e1, e2, e3⟩
      · have hfac : ∀ f, factor d f = f := by
          intro f
          unfold factor
          rw [e2, if_neg (by decide)]
        obtain ⟨G, -⟩ := M.wp_ok (wpT_baselineSetup_frame (s := ⟨d, rd⟩) U.frame) hs
        dsimp only at G
        rw [hfac, hfac] at G
        rw [hfac] at hfit
        rw [hfac, hfac] at hconv
        have h12 : fh ≤ 2 ∧ fv ≤ 2 := by
          rcases G.counts with ⟨a, b, -⟩ | ⟨a, b, -⟩ | ⟨a, b, -⟩ | ⟨a, b, -⟩ <;> omega
        have hdim : d.checkComponentDimensions = .ok () := by
          unfold baselineSetup at hs
          rw [M.bind_ok (show getDec ⟨d, rd⟩ = (.ok d, ⟨d, rd⟩) from rfl)] at hs
          obtain ⟨⟨⟩, s1, hs1, -⟩ := M.bind_ok_inv hs
          exact congrArg Prod.fst hs1
        exact started_colour ⟨U.frame, e1, hdim, e2, h12.1, h12.2, U.wLe, U.hLe⟩ K h3 hf3 hconv hfit ht hs
      · have hfac : ∀ f, factor d f = 1 := by
          intro f
          unfold factor
          rw [if_pos e2]
        rw [hfac, hfac] at hconv
        exact started_gray U.frame U.wLe U.hLe e1 e2 e3 K h3 hconv hs
    obtain ⟨S, hrd⟩ := hst
    have hni : NI h'.dec rd { dec := h'.dec, io := { bs := BitStream.new, rd := h'.rd } } :=
      ⟨S.kept, by rw [hrd], fun m hm => (by cases hm), Nat.zero_le _, fun j hj => (by cases hj)⟩
    have hw' := wpN_strips (s := s) S.three hn S.units S.cs S.jobs s.mcuHeight hni (by
      show 0 + _ ≤ _
      rw [Nat.zero_add]
      exact S.room)
    dsimp only
    have hr := M.wp_returns hw'
    have hj : JobsOk (strips s s.mcuHeight
        { dec := h'.dec, io := { bs := BitStream.new, rd := h'.rd } }).2 := by
      unfold wpN wp at hw'
      rcases hx : strips s s.mcuHeight { dec := h'.dec, io := { bs := BitStream.new, rd := h'.rd } } with
        ⟨_ | _ | _ | _, t⟩ <;> rw [hx] at hw'
      · exact hw'.jobs
      · exact hw'
      · exact hw'.elim
      · exact hw'.elim
    exact returns_map _ (joinPool_returns hr hj)
  · exact Or.inr ⟨_, rfl⟩
  · unfold wp at hret
    rw [hs] at hret
    exact hret.elim
  · unfold wp at hret
    rw [hs] at hret
    exact hret.elim
end

end Zune
