import Verif.Lemmas.SoundScan
import Verif.Lemmas.SoundWork
import Verif.Lemmas.Decode
import Mathlib.Tactic.Ring
/-! The whole decoder leaves no slice. -/

namespace Zune

/-- All components have power-of-two sampling factors. -/
def AllPow2 (d : Decoder) : Prop := ∀ c ∈ d.components, c.Pow2

/-- The image is grayscale or all components have power-of-two sampling factors, and the functions
are those of the beginning. -/
def Good (F : Cpu × IdctFn × ColorFn) (d : Decoder) : Prop :=
  d.fns = F ∧ (d.inputColorspace = .grayscale ∨ AllPow2 d)

variable {F : Cpu × IdctFn × ColorFn}

theorem pow2_of_factors {c c' : Component} (h : c'.factors = c.factors) (hc : c.Pow2) : c'.Pow2 := by
  unfold Component.factors at h
  obtain ⟨h1, h2⟩ := Prod.mk.inj h
  exact ⟨h1 ▸ hc.1, h2 ▸ hc.2⟩

theorem allPow2_of_factors {l l' : List Component}
    (h : l'.map Component.factors = l.map Component.factors) (hl : ∀ c ∈ l, c.Pow2) :
    ∀ c ∈ l', c.Pow2 := by
  intro c hc
  have : c.factors ∈ l.map Component.factors := h ▸ List.mem_map_of_mem hc
  obtain ⟨b, hb, e⟩ := List.mem_map.1 this
  exact pow2_of_factors e.symm (hl b hb)

theorem shape_allPow2 : Shape fun d => d.fns = F ∧ AllPow2 d where
  same := fun h e _ f => ⟨f.trans h.1, allPow2_of_factors e h.2⟩
  fresh := fun h f hp => ⟨f.trans h.1, hp⟩

theorem shape_good : Shape (Good F) where
  same := fun {d d'} h e e' f => by
    refine ⟨f.trans h.1, ?_⟩
    rcases h.2 with h | h
    · left
      rcases e' with e' | e'
      · rw [e', h]
      · exact e'
    · exact Or.inr (allPow2_of_factors e h)
  fresh := fun h f hp => ⟨f.trans h.1, Or.inr hp⟩

/-! ### Setup of a scan -/

theorem map_tail_factors (c : Component) (cs : List Component) (u : UpSampler) :
    (c :: cs.map fun x => { x with upSampler := u }).map Component.factors =
      (c :: cs).map Component.factors := by
  simp only [List.map_cons, List.map_map, List.cons.injEq, true_and]
  exact List.map_congr_left fun _ _ => rfl

theorem snd_setUpsampling : Snd (Good F) Decoder.setUpsampling fun _ => True := by
  intro d hd
  have go : ∀ (r : SubSampRatios) (u : UpSampler),
      let x : Out Unit × Decoder := match setTailUpSampler u d.components with
        | .ok cs => (.ok (), { d with subSampleRatio := r, components := cs })
        | .err e => (.err e, { d with subSampleRatio := r })
        | .panic p => (.panic p, { d with subSampleRatio := r })
        | .diverge => (.diverge, { d with subSampleRatio := r })
      x.1 ≠ .panic .unsound ∧ Good F x.2 ∧ ∀ a, x.1 = .ok a → True := by
    intro r u
    cases hc : d.components with
    | nil => exact ⟨fun e => (by cases e), shape_good.same hd (by rw [hc]; rfl) (Or.inl rfl), fun _ _ => trivial⟩
    | cons c cs =>
      refine ⟨fun e => (by cases e), shape_good.same hd ?_ (Or.inl rfl), fun _ _ => trivial⟩
      rw [hc]
      exact map_tail_factors c cs u
  unfold Decoder.setUpsampling
  dsimp only
  split
  · exact ⟨fun e => (by cases e), hd, fun _ _ => trivial⟩
  split
  · exact go _ _
  split
  · exact go _ _
  split
  · exact go _ _
  · exact ⟨fun e => (by cases e), hd, fun _ _ => trivial⟩

theorem snd_liftDec {α : Type} {m : M Decoder α} {R : α → Prop} (h : Snd (Good F) m R) :
    Snd (onH (Good F)) (liftDec m) R := fun s hs => h s.dec hs

theorem snd_mcuCounts : Snd (onH (Good F)) mcuCounts fun _ => True := by
  have h := snd_liftDec (F := F) snd_setUpsampling
  unfold mcuCounts
  sndH shape_good

/-- Switch to a stronger invariant that remembers the input colour space. -/
theorem Snd.remember {α : Type} {m : M H α} {R : α → Prop}
    (h : ∀ c, Snd (onH fun d => Good F d ∧ d.inputColorspace = c) m R) : Snd (onH (Good F)) m R := by
  intro s hs
  obtain ⟨h1, h2, h3⟩ := h s.dec.inputColorspace s ⟨hs, rfl⟩
  exact ⟨h1, h2.1, h3⟩

theorem snd_grayReset (m : Nat × Nat × Nat) : Snd (onH (Good F)) (grayReset m) fun _ => True := by
  refine Snd.remember fun c => ?_
  unfold grayReset
  refine Snd.getDec fun d hd => Snd.ite (fun hg => ?_) fun _ => Snd.pure _
  refine Snd.ite (fun _ => Snd.throw _) fun _ => Snd.ite (fun _ => Snd.panic (by decide)) fun _ => ?_
  refine Snd.bind (Snd.modDec fun d' hd' => ?_) fun _ => Snd.pure _
  exact ⟨⟨hd'.1.1, Or.inl (hd'.2.trans (hd.2.symm.trans hg.1))⟩, hd'.2⟩

theorem snd_finishSetup (w : Nat) : Snd (onH (Good F)) (finishSetup w) fun _ => True := by
  unfold finishSetup
  refine Snd.bind (snd_liftDec snd_setUpsampling) fun _ => Snd.remember fun c => ?_
  refine Snd.getDec fun d hd => ?_
  dsimp only
  refine Snd.ite (fun hg => ?_) fun _ => Snd.pure _
  refine Snd.ite (fun _ => Snd.throw _) fun _ => Snd.ite (fun _ => Snd.panic (by decide)) fun _ => ?_
  refine Snd.bind (Snd.modDec fun d' hd' => ?_) fun _ => Snd.pure _
  exact ⟨⟨hd'.1.1, Or.inl (hd'.2.trans (hd.2.symm.trans hg.1))⟩, hd'.2⟩

theorem sound_checkDims (cw : Nat) : ∀ cs : List Component, (checkDims cw cs).Sound
  | [] => Out.sound_ok _
  | c :: cs => by
    have ih := sound_checkDims cw cs
    unfold checkDims
    intro e
    revert e
    repeat' split
    all_goals first | exact ih | exact fun e => by cases e

theorem sound_checkComponentDimensions (d : Decoder) : d.checkComponentDimensions.Sound := by
  unfold Decoder.checkComponentDimensions
  split
  · exact fun e => by cases e
  · exact Out.sound_ite (fun _ => Out.sound_panic (by decide)) fun _ => sound_checkDims _ _

theorem sound_checkTables (d : Decoder) : d.checkTables.Sound := by
  refine Out.sound_fold' fun _ i _ => ?_
  unfold checkTable
  repeat' split
  all_goals exact fun e => by cases e

theorem snd_baselineSetup : Snd (onH (Good F)) baselineSetup fun _ => True := by
  unfold baselineSetup
  refine Snd.getDec fun d _ => ?_
  refine Snd.bind (Snd.ofOut (sound_checkComponentDimensions _)).triv fun _ => ?_
  refine Snd.bind (Snd.ofOut (sound_checkTables _)).triv fun _ => ?_
  refine Snd.bind snd_mcuCounts fun m => Snd.bind (snd_grayReset m) fun m => Snd.getDec fun d _ => ?_
  refine Snd.bind (Snd.idx _ _).triv fun c0 => ?_
  exact Snd.ite (fun _ => Snd.panic (by decide)) fun _ => Snd.pure _

/-! ### Sizes of the planes -/

theorem pow2_lens {a b K : Nat} {c c' : Component} (hc : c.Pow2) (hc' : c'.Pow2)
    (ha : a = K * (c.verticalSample * c.horizontalSample))
    (hb : b = K * (c'.verticalSample * c'.horizontalSample)) :
    a ≤ 2 * b ∨ a = 4 * b ∨ 8 * b ≤ a := by
  have h1 := hc.1
  have h2 := hc.2
  have h3 := hc'.1
  have h4 := hc'.2
  simp only [isPow2, Bool.or_eq_true, decide_eq_true_eq] at h1 h2 h3 h4
  subst ha hb
  rcases h1 with ((h1 | h1) | h1) | h1 <;> rcases h2 with ((h2 | h2) | h2) | h2 <;>
    rcases h3 with ((h3 | h3) | h3) | h3 <;> rcases h4 with ((h4 | h4) | h4) | h4 <;>
    rw [h1, h2, h3, h4] <;> omega

theorem sound_allocTemp (s : Scan) (d : Decoder) : (allocTemp s d).Sound := by
  unfold allocTemp
  exact Out.sound_ite (fun _ => Out.sound_panic (by decide)) fun _ => Out.sound_ok _

theorem upOk_gray (comps : List Component) (c : ColorSpace) (lens : Nat → Nat) :
    UpOk comps (min ColorSpace.grayscale.numComponents c.numComponents) lens := by
  intro i _ h0 h1
  have : ColorSpace.grayscale.numComponents = 1 := rfl
  omega

theorem allocTemp_sizes {s : Scan} {d : Decoder} {temp : List (List I16)}
    (h : allocTemp s d = .ok temp) (j : Nat) : (sizes temp).getD j 0 = 0 ∨ ∃ c ∈ d.components,
      (sizes temp).getD j 0 = (s.mcuWidth * 64 * s.bias) * (c.verticalSample * c.horizontalSample) := by
  unfold allocTemp at h
  dsimp only at h
  split at h
  · cases h
  · injection h with h
    subst h
    by_cases hj : j < 3
    · simp only [sizes, List.getD_eq_getElem?_getD, List.getElem?_map, List.getElem?_range hj,
        Option.map_some, Option.getD_some]
      cases hc : d.components[j]? with
      | none => exact Or.inl rfl
      | some c =>
        dsimp only
        split
        · right
          refine ⟨c, List.mem_of_getElem? hc, ?_⟩
          rw [List.length_replicate]
          ring
        · exact Or.inl rfl
    · left
      rw [List.getD_eq_getElem?_getD, List.getElem?_eq_none (by simpa using hj)]
      rfl

theorem upOk_temp {s : Scan} {d : Decoder} {temp : List (List I16)} (h : allocTemp s d = .ok temp)
    (hd : AllPow2 d) (comps : List Component) (x : Nat) :
    UpOk comps x fun i => (sizes temp).getD i 0 := by
  intro i c h0 _ _ _
  dsimp only
  rcases allocTemp_sizes h i with hi | ⟨ci, mi, hi⟩
  · rw [hi]; exact Or.inr (Or.inr (Nat.zero_le _))
  · rcases allocTemp_sizes h 0 with h00 | ⟨c0, m0, h00⟩
    · rw [h00]; exact Or.inl (Nat.zero_le _)
    · exact pow2_lens (hd _ m0) (hd _ mi) h00 hi

theorem getD_sizes (l : List (List I16)) (i : Nat) : (l.getD i []).length = (sizes l).getD i 0 := by
  simp only [sizes, List.getD_eq_getElem?_getD, List.getElem?_map]
  cases l[i]? <;> rfl

/-! ### Baseline -/

variable {P : Decoder → Prop}

theorem snd_strip (S : Shape P) (s : Scan) (hP : ∀ d, P d → s.inCs = .grayscale ∨ AllPow2 d) :
    Snd (onT P) (strip s) fun _ => True := by
  unfold strip
  refine Snd.get fun t ht => Snd.bindR (Snd.ofOut (sound_allocTemp _ _)) fun temp he => ?_
  refine Snd.bindR (snd_decodeStrip S _ _) fun temp' hs => ?_
  intro t' ht'
  unfold submit
  dsimp only
  split
  · refine ⟨fun e => (by cases e), ⟨ht'.1, fun j hj => ?_⟩, fun _ _ => trivial⟩
    rcases List.mem_append.1 hj with hj | hj
    · exact ht'.2 j hj
    · rw [List.mem_singleton.1 hj]
      refine sound_postProcess _ _ _ _ _ _ _ _ ?_
      rcases hP _ ht.1 with hg | hg
      · rw [hg]; exact upOk_gray _ _ _
      · have := upOk_temp he hg s.comps (min s.inCs.numComponents s.outCs.numComponents)
        simp only [getD_sizes, hs]
        exact this
  · exact ⟨fun e => (by cases e), ht', fun _ _ => trivial⟩

theorem snd_strips (S : Shape P) (s : Scan) (hP : ∀ d, P d → s.inCs = .grayscale ∨ AllPow2 d) :
    ∀ n, Snd (onT P) (strips s n) fun _ => True
  | 0 => Snd.pure _
  | n + 1 => Snd.bind (snd_strip S s hP) fun _ => snd_strips S s hP n

theorem sound_joinPool {r : Out Unit} {jobs : List (Out (List UInt8))} (hr : r.Sound)
    (hj : ∀ j ∈ jobs, j ≠ .panic .unsound) : (joinPool r jobs).Sound := by
  unfold joinPool
  rw [if_neg]
  · intro e
    revert e
    split
    · intro e; injection e with e; subst e; exact hr rfl
    · intro e; cases e
    · split <;> intro e <;> cases e
    · split <;> intro e <;> cases e
  · rw [List.any_eq_true]
    rintro ⟨j, hm, h⟩
    refine hj j hm ?_
    cases j with
    | panic p => cases p <;> first | rfl | cases h
    | _ => cases h

theorem Out.Sound.map {α β : Type} {o : Out α} {f : α → β} (h : o.Sound) : (o.map f).Sound := by
  cases o with
  | panic p => intro e; injection e with e; subst e; exact h rfl
  | _ => intro e; cases e

theorem snd_decodeBaseline : Snd (onH (Good F)) decodeBaseline fun _ => True := by
  intro h hg
  have hw := wpT_baselineSetup (h := h)
  obtain ⟨h1, h2, -⟩ := snd_baselineSetup h hg
  unfold wpT M.wp at hw
  unfold decodeBaseline
  rcases hb : baselineSetup h with ⟨s | e | p | _, h'⟩ <;> rw [hb] at hw h1 h2
  · simp only at hw ⊢
    obtain ⟨-, -, -, m, c0, rfl⟩ := hw
    have key : ∃ Q, Shape Q ∧ Q h'.dec ∧ (∀ d, Q d → Good F d) ∧
        ∀ d, Q d → (mkScan m h'.dec c0).inCs = .grayscale ∨ AllPow2 d := by
      rcases h2.2 with hc | hc
      · exact ⟨Good F, shape_good, ⟨h2.1, Or.inl hc⟩, fun _ h => h, fun _ _ => Or.inl hc⟩
      · exact ⟨fun d => d.fns = F ∧ AllPow2 d, shape_allPow2, ⟨h2.1, hc⟩, fun _ h => ⟨h.1, Or.inr h.2⟩,
          fun _ h => Or.inr h.2⟩
    obtain ⟨Q, S, q0, q1, q2⟩ := key
    obtain ⟨r1, r2, -⟩ := snd_strips S _ q2 (mkScan m h'.dec c0).mcuHeight
      { dec := h'.dec, io := { bs := BitStream.new, rd := h'.rd } } ⟨q0, fun j hj => (by cases hj)⟩
    exact ⟨(sound_joinPool r1 r2.2).map, q1 _ r2.1, fun _ _ => trivial⟩
  · exact ⟨fun e => (by cases e), h2, fun _ _ => trivial⟩
  · refine ⟨fun e => ?_, h2, fun _ _ => trivial⟩
    injection e with e
    subst e
    exact h1 rfl
  · exact ⟨fun e => (by cases e), h2, fun _ _ => trivial⟩

/-! ### Progressive -/

theorem snd_getMarker : Snd (onT P) getMarker fun _ => True := by
  intro t ht
  unfold getMarker
  split
  · exact ⟨fun e => (by cases e), ht, fun _ _ => trivial⟩
  · dsimp only
    split <;> exact ⟨fun e => (by cases e), ht, fun _ _ => trivial⟩

theorem snd_takeMarker : Snd (onT P) takeMarker fun _ => True := by
  intro t ht
  unfold takeMarker
  split <;> exact ⟨fun e => (by cases e), ht, fun _ _ => trivial⟩

theorem snd_parseEntropy (S : Shape P) (bufs : List (List I16)) :
    Snd (onT P) (parseEntropy bufs) fun _ => True := by
  unfold parseEntropy
  refine Snd.get fun t _ => Snd.bind (Snd.ofOut (sound_checkComponentDimensions _)).triv fun _ => ?_
  refine Snd.bind (Snd.modify fun t ht => ?_) fun _ => Snd.get fun t _ => ?_
  · exact ⟨S.same ht.1 (by simp [List.map_map]; exact fun _ _ => rfl) (Or.inl rfl), ht.2⟩
  dsimp only
  refine Snd.ite (fun _ => Snd.throw _) fun _ => Snd.ite (fun _ => ?_) fun _ => ?_
  · refine Snd.ite (fun _ => Snd.throw _) fun _ => Snd.bind (Snd.idx _ _).triv fun k => ?_
    refine Snd.ite (fun _ => Snd.throw _) fun _ => Snd.bind (Snd.idx _ _).triv fun comp => ?_
    exact snd_progLoop S _ _ _ _ _ _ _
  · refine Snd.ite (fun _ => Snd.throw _) fun _ => ?_
    refine Snd.foldM (R := fun _ => True) (fun b a _ => ?_) _ _ trivial
    exact Snd.foldM (R := fun _ => True) (fun b k _ => snd_interComponent S _ _ _ _) _ _ trivial

theorem snd_scanLoop (S : Shape P) : ∀ fuel seen m bufs,
    Snd (onT P) (scanLoop fuel seen m bufs) fun _ => True
  | 0, seen, m, bufs => by
    unfold scanLoop
    exact Snd.ite (fun _ => Snd.diverge) fun _ => Snd.pure _
  | fuel + 1, seen, m, bufs => by
    have ih := fun a b c => snd_scanLoop S fuel a b c
    unfold scanLoop
    cases m
    case dht =>
      exact Snd.bind (snd_liftH (snd_parseHuffman S)) fun _ => Snd.bind snd_getMarker fun m => ih _ _ _
    case sos =>
      refine Snd.bind (snd_liftH (snd_parseSos S)) fun _ => Snd.bind (Snd.modify fun t ht => ht) fun _ =>
        Snd.bind (snd_parseEntropy S _) fun bufs => Snd.bind snd_getMarker fun m => Snd.get fun t _ => ?_
      exact Snd.ite (fun _ => Snd.throw _) fun _ => Snd.bind (Snd.modify fun t ht => ht) fun _ => ih _ _ _
    all_goals exact Snd.pure _

theorem snd_progScans (S : Shape P) (bufs : List (List I16)) :
    Snd (onT P) (progScans bufs) fun _ => True := by
  unfold progScans
  exact Snd.bind (snd_parseEntropy S _) fun bufs => Snd.bind snd_takeMarker fun m =>
    Snd.get fun t _ => snd_scanLoop S _ _ _ _

theorem snd_runScans (bufs : List (List I16)) : Snd (onH (Good F)) (runScans bufs) fun _ => True := by
  intro h hg
  obtain ⟨r1, r2, -⟩ := snd_progScans shape_good bufs { dec := h.dec, io := progIo h }
    ⟨hg, fun j hj => (by cases hj)⟩
  exact ⟨r1, r2.1, fun _ _ => trivial⟩

theorem sound_progAlloc (d : Decoder) : (progAlloc d).Sound := by
  unfold progAlloc
  refine Out.Sound.bind (Out.sound_collect fun o ho => ?_) fun _ _ => Out.sound_ok _
  obtain ⟨i, -, rfl⟩ := List.mem_map.1 ho
  split <;> exact fun e => by cases e

/-- The strips of a progressive image have planes that the upsampler can handle. -/
theorem progStrips_ok (d : Decoder) (mw bias : Nat) (bufs : List (List I16)) :
    (progStrips d mw bias bufs).Sound ∧ ∀ ss, progStrips d mw bias bufs = .ok ss →
      AllPow2 d → ∀ s ∈ ss, ∀ comps x, UpOk comps x fun i => (s.getD i []).length := by
  unfold progStrips
  cases h0 : d.components[0]? with
  | none => exact ⟨fun e => (by cases e), fun _ e => (by cases e)⟩
  | some c0 =>
    dsimp only
    split
    · exact ⟨fun e => (by cases e), fun _ e => (by cases e)⟩
    split
    · cases h1 : d.components[1]? with
      | none => exact ⟨fun e => (by cases e), fun _ e => (by cases e)⟩
      | some c1 =>
        dsimp only
        split
        · exact ⟨fun e => (by cases e), fun _ e => (by cases e)⟩
        refine ⟨fun e => (by cases e), fun ss e hp s hs comps x i c hi _ _ _ => ?_⟩
        injection e with e
        subst e
        obtain ⟨⟨y, cb, cr⟩, hm, rfl⟩ := List.mem_map.1 hs
        have hz := List.mem_of_mem_take hm
        have hy := chunk_length (List.of_mem_zip hz).1
        have hcb := chunk_length (List.of_mem_zip (List.of_mem_zip hz).2).1
        have hcr := chunk_length (List.of_mem_zip (List.of_mem_zip hz).2).2
        have hp0 := hp _ (List.mem_of_getElem? h0)
        have hp1 := hp _ (List.mem_of_getElem? h1)
        have ey : y.length = mw * bias * (c0.verticalSample * c0.horizontalSample) := by
          rw [hy]; ring
        have eb : cb.length = mw * bias * (c1.verticalSample * c1.horizontalSample) := by
          rw [hcb]; ring
        have er : cr.length = mw * bias * (c1.verticalSample * c1.horizontalSample) := by
          rw [hcr]; ring
        rcases i with _ | _ | _ | i
        · omega
        · exact pow2_lens hp0 hp1 ey eb
        · exact pow2_lens hp0 hp1 ey er
        · exact Or.inr (Or.inr (by simp))
    · refine ⟨fun e => (by cases e), fun ss e hp s hs comps x i c hi _ _ _ => ?_⟩
      injection e with e
      subst e
      obtain ⟨y, -, rfl⟩ := List.mem_map.1 hs
      rcases i with _ | _ | _ | i
      · omega
      all_goals exact Or.inr (Or.inr (by simp))

theorem snd_finishProgressive (bufs : List (List I16)) (w : Nat) :
    Snd (onH (Good F)) (finishProgressive bufs w) fun _ => True := by
  unfold finishProgressive
  refine Snd.bind (snd_finishSetup w) fun x => ?_
  refine Snd.getDec fun d hd => ?_
  obtain ⟨h1, h2⟩ := progStrips_ok d x.1 x.2 bufs
  refine Snd.bindR (Snd.ofOut h1) fun ss he => ?_
  refine Snd.bind (Snd.ofOut (sound_joinPool (Out.sound_ok _) fun j hj => ?_)).triv fun _ => Snd.pure _
  obtain ⟨s, hs, rfl⟩ := List.mem_map.1 hj
  refine sound_postProcess _ _ _ _ _ _ _ _ ?_
  rcases hd.2 with hg | hg
  · rw [hg]; exact upOk_gray _ _ _
  · exact h2 ss he hg s hs _ _

theorem snd_decodeProgressive : Snd (onH (Good F)) decodeProgressive fun _ => True := by
  unfold decodeProgressive
  refine Snd.getDec fun d _ => ?_
  refine Snd.bind (Snd.ofOut (sound_checkComponentDimensions _)).triv fun _ => ?_
  exact Snd.bind (Snd.ofOut (sound_progAlloc _)).triv fun x => Snd.bind (snd_runScans _) fun b =>
    snd_finishProgressive _ _

theorem snd_decodeInternal : Snd (onH (Good F)) decodeInternal fun _ => True := by
  unfold decodeInternal
  refine Snd.bind (snd_decodeHeaders shape_good) fun _ => Snd.getDec fun d _ => ?_
  exact Snd.ite (fun _ => snd_decodeProgressive) fun _ => snd_decodeBaseline

end Zune
