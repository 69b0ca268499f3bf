import Verif.Lemmas.Frame
/-! The marker loop keeps the decoder well formed. -/

namespace Zune
open M (wp wp_bind wp_mono wp_pure wp_throw wp_idx wp_idx_of wp_okOr wp_ofOut wp_failIf wp_ite_of
  wp_diverge wp_panic)
open Spec

/-- The limits of the options. -/
def Limited (d : Decoder) : Prop :=
  d.info.width ≠ 0 ∧ d.info.height ≠ 0 ∧ d.info.width.toNat ≤ d.options.getMaxWidth ∧
    d.info.height.toNat ≤ d.options.getMaxHeight

/-- What holds of the decoder between segments, `d0` being the decoder at the start. -/
structure DecInv (d0 d : Decoder) : Prop where
  qt : d.qtTables.length = 4
  tables : TablesOk d
  z : d.zOrder.length = 4
  opts : d.options = { d0.options with outColorspace := d.options.outColorspace }
  fixed : d.cpu = d0.cpu ∧ d.idctFn = d0.idctFn ∧ d.colorFn = d0.colorFn
  maxes : 1 ≤ d.hMax ∧ 1 ≤ d.vMax
  frame : (d.info = {} ∧ d.components = []) ∨
    (Limited d ∧ d.components.length = d.info.components.toNat ∧ d.info.components ≠ 0 ∧
      (∀ c ∈ d.components, ComponentOk c) ∧
      (∀ c ∈ d.components, c.horizontalSample ≤ d.hMax ∧ c.verticalSample ≤ d.vMax))
  spec : d.specStart ≤ 63 ∧ d.specEnd ≤ 63
  succ : d.succHigh ≤ 13 ∧ d.succLow ≤ 13

theorem decInv_new (cpu : Cpu) (o : Options) :
    DecInv (Decoder.newWithOptions cpu o) (Decoder.newWithOptions cpu o) :=
  ⟨rfl, tablesOk_new cpu o, rfl, rfl, ⟨rfl, rfl, rfl⟩, ⟨Nat.le_refl _, Nat.le_refl _⟩,
    Or.inl ⟨rfl, rfl⟩, ⟨Nat.zero_le _, Nat.zero_le _⟩, ⟨Nat.zero_le _, Nat.zero_le _⟩⟩

theorem TablesOk.of_eq {d d' : Decoder} (h : TablesOk d) (h1 : d'.dcTables = d.dcTables)
    (h2 : d'.acTables = d.acTables) : TablesOk d' :=
  ⟨by rw [h1]; exact h.dcLen, by rw [h2]; exact h.acLen, by rw [h1]; exact h.dc,
    by rw [h2]; exact h.ac⟩

/-- The segments other than frame and scan headers change only tables and the restart interval. -/
structure TablesOnly (d d' : Decoder) : Prop where
  dec : d' = { d with
    qtTables := d'.qtTables, dcTables := d'.dcTables, acTables := d'.acTables
    restartInterval := d'.restartInterval, todo := d'.todo }
  qt : d'.qtTables.length = d.qtTables.length
  tables : TablesOk d → TablesOk d'

theorem TablesOnly.refl (d : Decoder) : TablesOnly d d := ⟨rfl, rfl, id⟩

/-- What a segment did to the decoder. -/
def Effect (m : Marker) (s s' : H) : Prop :=
  match m with
  | .sof 0 => ∃ x y h1 h2 w1 w2 n cs cs',
      SofOk .baselineDct s.dec s.rd s'.dec s'.rd x y h1 h2 w1 w2 n cs cs'
  | .sof 2 => ∃ x y h1 h2 w1 w2 n cs cs', SofOk .progressiveDctHuffman
      { s.dec with isProgressive := true } s.rd s'.dec s'.rd x y h1 h2 w1 w2 n cs cs'
  | .sos => ∃ x y n ss se a ps, SosOk s.dec s.rd s'.dec s'.rd x y n ss se a ps
  | _ => TablesOnly s.dec s'.dec

section
variable {pn dv : Prop} {s : H}

theorem wp_skipSegment : wp pn dv skipSegment (fun _ s' => s'.dec = s.dec ∧ s'.rd <:+ s.rd ∧
    s'.rd.length + 2 ≤ s.rd.length) (fun _ s' => s'.dec = s.dec) s := by
  unfold skipSegment
  rw [wp_bind]
  refine wp_readU16 (fun a b r hr => ?_) (fun _ => rfl)
  refine wp_ite_of (fun _ => rfl) fun _ => ?_
  refine ⟨rfl, ?_, ?_⟩
  · dsimp only
    rw [hr]
    exact (List.drop_suffix _ _).trans ((List.suffix_cons _ _).trans (List.suffix_cons _ _))
  · dsimp only
    rw [hr]
    simp

theorem mem_le_maxH {cs : List Component} {a : Nat} {c : Component} (h : c ∈ cs) :
    c.horizontalSample ≤ maxH a cs := by
  induction cs generalizing a with
  | nil => simp at h
  | cons b cs ih =>
    rcases List.mem_cons.1 h with rfl | h
    · exact Nat.le_trans (Nat.le_max_right a _) (le_maxH _ _)
    · exact ih h
theorem mem_le_maxV {cs : List Component} {a : Nat} {c : Component} (h : c ∈ cs) :
    c.verticalSample ≤ maxV a cs := by
  induction cs generalizing a with
  | nil => simp at h
  | cons b cs ih =>
    rcases List.mem_cons.1 h with rfl | h
    · exact Nat.le_trans (Nat.le_max_right a _) (le_maxV _ _)
    · exact ih h

theorem SofOk.componentsOk {sof : SofMarker} {d d' : Decoder} {rd rd' : List UInt8}
    {x y h1 h2 w1 w2 n : UInt8} {cs cs' : List Component}
    (h : SofOk sof d rd d' rd' x y h1 h2 w1 w2 n cs cs') : ∀ c ∈ cs', ComponentOk c := by
  intro c hc
  obtain ⟨c0, hc0, he, -⟩ := h.setup.mem hc
  have := (h.fresh c0 hc0).1
  rw [he]
  exact ⟨this.id, this.h, this.v, this.tq⟩

theorem DecInv.sof {d0 d d' : Decoder} (I : DecInv d0 d) {sof : SofMarker} {rd rd' : List UInt8}
    {x y h1 h2 w1 w2 n : UInt8} {cs cs' : List Component}
    (h : SofOk sof d rd d' rd' x y h1 h2 w1 w2 n cs cs') : DecInv d0 d' := by
  have hd := h.dec
  have ho : d'.options = if n = 1 then d.options.setOutColorspace .grayscale else d.options := by
    rw [hd]; rfl
  have e : d'.options = { d0.options with outColorspace := d'.options.outColorspace } := by
    rw [ho, I.opts]
    split <;> rfl
  constructor
  · rw [hd]; rfl
  · exact I.tables.of_eq (by rw [hd]; rfl) (by rw [hd]; rfl)
  · rw [hd]; exact I.z
  · exact e
  · rw [hd]; exact I.fixed
  · rw [hd]
    exact ⟨Nat.le_trans I.maxes.1 (le_maxH _ _), Nat.le_trans I.maxes.2 (le_maxV _ _)⟩
  · right
    refine ⟨⟨?_, ?_, ?_, ?_⟩, ?_, ?_, ?_, ?_⟩
    · rw [hd]; exact h.wpos
    · rw [hd]; exact h.hpos
    · have := h.wmax
      rw [I.opts] at this
      rw [e, hd]; exact this
    · have := h.hmax
      rw [I.opts] at this
      rw [e, hd]; exact this
    · rw [hd]; exact h.count
    · rw [hd]; exact h.npos
    · rw [hd]; exact h.componentsOk
    · rw [hd]; exact fun c hc => ⟨mem_le_maxH hc, mem_le_maxV hc⟩
  · rw [hd]; exact I.spec
  · rw [hd]; exact I.succ

theorem SofOk.suffix {sof : SofMarker} {d d' : Decoder} {rd rd' : List UInt8}
    {x y h1 h2 w1 w2 n : UInt8} {cs cs' : List Component}
    (h : SofOk sof d rd d' rd' x y h1 h2 w1 w2 n cs cs') : rd' <:+ rd ∧ rd'.length + 2 ≤ rd.length := by
  rw [h.bytes]
  constructor
  · exact ⟨x :: y :: 8 :: h1 :: h2 :: w1 :: w2 :: n :: cs'.flatMap Component.bytes, by simp⟩
  · simp only [List.length_cons, List.length_append]; omega

theorem SosOk.suffix {d d' : Decoder} {rd rd' : List UInt8} {x y n ss se a : UInt8}
    {ps : List (UInt8 × UInt8)} (h : SosOk d rd d' rd' x y n ss se a ps) :
    rd' <:+ rd ∧ rd'.length + 2 ≤ rd.length := by
  rw [h.bytes]
  constructor
  · exact ⟨x :: y :: n :: (ps.flatMap (fun p => [p.1, p.2]) ++ [ss, se, a]), by simp⟩
  · simp only [List.length_cons, List.length_append]; omega

theorem and63_le (b : UInt8) : (b &&& 63).toNat ≤ 63 := by
  simp only [UInt8.toNat_and]
  exact Nat.and_le_right

theorem DecInv.sos {d0 d d' : Decoder} (I : DecInv d0 d) {rd rd' : List UInt8}
    {x y n ss se a : UInt8} {ps : List (UInt8 × UInt8)}
    (h : SosOk d rd d' rd' x y n ss se a ps) : DecInv d0 d' := by
  have hd := h.dec
  have hz := h.comps.zlen
  have hc := h.comps.comps
  have hfr : ∀ c' ∈ d'.components, ∃ c ∈ d.components, SameButTables c c' := by
    intro c' hc'
    obtain ⟨j, hj⟩ := List.getElem?_of_mem hc'
    obtain ⟨c, h1, h2⟩ := forall₂_get' hc hj
    exact ⟨c, List.mem_of_getElem? h1, h2⟩
  have hinfo : d'.info = d.info := by rw [hd]
  have hopt : d'.options = d.options := by rw [hd]
  have hh : d'.hMax = d.hMax := by rw [hd]
  have hv : d'.vMax = d.vMax := by rw [hd]
  constructor
  · rw [hd]; exact I.qt
  · exact I.tables.of_eq (by rw [hd]) (by rw [hd])
  · dsimp only at hz; rw [hz]; exact I.z
  · rw [hopt]; exact I.opts
  · rw [hd]; exact I.fixed
  · rw [hd]; exact I.maxes
  · rcases I.frame with ⟨h1, -⟩ | ⟨h1, h2, h3, h4, h5⟩
    · exact absurd (by rw [h1]) h.frame
    · right
      refine ⟨?_, ?_, ?_, ?_, ?_⟩
      · unfold Limited
        rw [hinfo, hopt]; exact h1
      · rw [← hc.length_eq, hinfo]; exact h2
      · rw [hinfo]; exact h3
      · intro c' hc'
        obtain ⟨c, hcm, he⟩ := hfr c' hc'
        have := h4 c hcm
        rw [he]
        exact ⟨this.id, this.h, this.v, this.tq⟩
      · intro c' hc'
        obtain ⟨c, hcm, he⟩ := hfr c' hc'
        have := h5 c hcm
        rw [he, hh, hv]
        exact this
  · rw [hd]; exact ⟨and63_le _, and63_le _⟩
  · rw [hd]; exact ⟨h.high, h.low⟩

theorem DecInv.prog {d0 d : Decoder} (I : DecInv d0 d) :
    DecInv d0 { d with isProgressive := true } :=
  ⟨I.qt, I.tables.of_eq rfl rfl, I.z, I.opts, I.fixed, I.maxes, I.frame, I.spec, I.succ⟩

theorem DecInv.comps_le {d0 d : Decoder} (I : DecInv d0 d) :
    d.info.components.toNat ≤ d.components.length := by
  rcases I.frame with ⟨h1, h2⟩ | ⟨-, h2, -⟩
  · rw [h1]; simp
  · omega

/-- One segment, for any decoder. -/
theorem wp_parseMarkerInner_raw (m : Marker) (hq : ¬ pn → s.dec.qtTables.length = 4)
    (hc : ¬ pn → s.dec.components.length ≤ 3 ∧
      s.dec.info.components.toNat ≤ s.dec.components.length) :
    wp pn dv (parseMarkerInner m) (fun _ s' => s'.rd <:+ s.rd ∧
      s'.rd.length + 2 ≤ s.rd.length ∧ Effect m s s') (fun _ _ => True) s := by
  unfold parseMarkerInner
  have skip : wp pn dv skipSegment (fun _ s' => s'.rd <:+ s.rd ∧
      s'.rd.length + 2 ≤ s.rd.length ∧ TablesOnly s.dec s'.dec) (fun _ _ => True) s := by
    refine wp_mono wp_skipSegment ?_ (fun _ _ _ => trivial)
    rintro _ s' ⟨h1, h2, h3⟩
    rw [h1]
    exact ⟨h2, h3, .refl _⟩
  split
  · refine wp_mono (wp_parseStartOfFrame _ hq) ?_ (fun _ _ h => h)
    rintro _ s' ⟨x, y, h1, h2, w1, w2, n, cs, cs', h⟩
    exact ⟨h.suffix.1, h.suffix.2, _, _, _, _, _, _, _, _, _, h⟩
  · rw [wp_bind, wp_modDec]
    refine wp_mono (wp_parseStartOfFrame _ hq) ?_ (fun _ _ h => h)
    rintro _ s' ⟨x, y, h1, h2, w1, w2, n, cs, cs', h⟩
    exact ⟨h.suffix.1, h.suffix.2, _, _, _, _, _, _, _, _, _, h⟩
  · trivial
  · refine wp_mono wp_parseDqt ?_ (fun _ _ _ => trivial)
    rintro _ s' ⟨⟨x, y, a, hb, hl⟩, he, hq⟩
    refine ⟨?_, ?_, ?_⟩
    · exact ⟨x :: y :: a, by rw [hb]; simp⟩
    · rw [hb]; simp only [List.length_cons, List.length_append]; omega
    · exact ⟨by rw [he], hq, fun h => h.of_eq (by rw [he]) (by rw [he])⟩
  · refine wp_mono wp_parseHuffman ?_ (fun _ _ _ => trivial)
    rintro _ s' ⟨⟨x, y, a, hb, hl⟩, he, ht⟩
    refine ⟨?_, ?_, ?_⟩
    · exact ⟨x :: y :: a, by rw [hb]; simp⟩
    · rw [hb]; simp only [List.length_cons, List.length_append]; omega
    · exact ⟨by rw [he], by rw [he], ht⟩
  · refine wp_mono (wp_parseSos hc) ?_ (fun _ _ h => h)
    rintro _ s' ⟨x, y, n, ss, se, a, ps, h⟩
    exact ⟨h.suffix.1, h.suffix.2, _, _, _, _, _, _, _, h⟩
  · trivial
  · trivial
  · trivial
  · rw [wp_bind]
    refine wp_readU16 (fun a b r hr => ?_) (fun _ => trivial)
    refine wp_ite_of (fun _ => trivial) fun _ => ?_
    rw [wp_bind]
    refine wp_readU16 (fun a' b' r' hr' => ?_) (fun _ => trivial)
    rw [wp_modDec]
    dsimp only at hr' ⊢
    refine ⟨?_, ?_, rfl, rfl, fun h => h.of_eq rfl rfl⟩
    · exact ⟨[a, b, a', b'], by rw [hr, hr']; simp⟩
    · rw [hr, hr']; simp only [List.length_cons]; omega
  all_goals exact skip

theorem DecInv.tablesOnly {d0 d d' : Decoder} (I : DecInv d0 d) (h : TablesOnly d d') :
    DecInv d0 d' := by
  have hd := h.dec
  have hinfo : d'.info = d.info := by rw [hd]
  have hcomp : d'.components = d.components := by rw [hd]
  have hopt : d'.options = d.options := by rw [hd]
  constructor
  · rw [h.qt]; exact I.qt
  · exact h.tables I.tables
  · rw [hd]; exact I.z
  · rw [hopt]; exact I.opts
  · rw [hd]; exact I.fixed
  · rw [hd]; exact I.maxes
  · unfold Limited
    rw [hinfo, hcomp, hopt]
    rw [show d'.hMax = d.hMax by rw [hd], show d'.vMax = d.vMax by rw [hd]]
    exact I.frame
  · rw [hd]; exact I.spec
  · rw [hd]; exact I.succ

theorem DecInv.effect {d0 : Decoder} {s s' : H} {m : Marker} (I : DecInv d0 s.dec)
    (h : Effect m s s') : DecInv d0 s'.dec := by
  unfold Effect at h
  split at h
  · obtain ⟨x, y, h1, h2, w1, w2, n, cs, cs', h⟩ := h
    exact I.sof h
  · obtain ⟨x, y, h1, h2, w1, w2, n, cs, cs', h⟩ := h
    exact I.prog.sof h
  · obtain ⟨x, y, n, ss, se, a, ps, h⟩ := h
    exact I.sos h
  · exact I.tablesOnly h

/-- One segment. -/
theorem wp_parseMarkerInner {d0 : Decoder} (m : Marker) (I : DecInv d0 s.dec)
    (hc : ¬ pn → s.dec.components.length ≤ 3) :
    wp pn dv (parseMarkerInner m) (fun _ s' => DecInv d0 s'.dec ∧ s'.rd <:+ s.rd ∧
      s'.rd.length + 2 ≤ s.rd.length ∧ Effect m s s') (fun _ _ => True) s := by
  refine wp_mono (wp_parseMarkerInner_raw m (fun _ => I.qt) fun hp => ⟨hc hp, I.comps_le⟩) ?_
    (fun _ _ h => h)
  rintro _ s' ⟨h1, h2, h3⟩
  exact ⟨I.effect h3, h1, h2, h3⟩

/-- The rule for the marker loop. `J last s` is the invariant. -/
theorem wp_headerLoop {J : UInt8 → H → Prop} {Q : Unit → H → Prop} {E : DecodeErr → H → Prop}
    (hend : ∀ last s, J last s → s.rd = [] → E .format s)
    (hstrict : ∀ last s, J last s → E .formatStatic s)
    (hstep : ∀ last count m r s, J last s → s.rd = m :: r →
      wp pn dv (headerStep last count m)
        (fun o s' => s'.rd.length ≤ r.length ∧
          match o with
          | none => Q () s'
          | some _ => J m s') E ⟨s.dec, r⟩) :
    ∀ (fuel : Nat) (last : UInt8) (count : Nat) (s : H), J last s → s.rd.length < fuel →
      wp pn dv (headerLoop fuel last count) Q E s
  | 0, _, _, _, _, h => by omega
  | fuel + 1, last, count, s, hJ, hf => by
    unfold headerLoop
    rw [wp_bind]
    refine wp_readByte (fun m r hr => ?_) (fun h => hend _ _ hJ h)
    rw [wp_bind]
    refine wp_mono (hstep last count m r s hJ hr) ?_ (fun _ _ h => h)
    rintro o s' ⟨hl, ho⟩
    cases o with
    | none => exact ho
    | some c =>
      dsimp only at ho ⊢
      rw [wp_bind, wp_getDec]
      refine wp_ite_of (fun _ => hstrict _ _ ho) fun _ => ?_
      exact wp_headerLoop hend hstrict hstep fuel m (c + 1) s' ho (by rw [hr] at hf; simp at hf; omega)
end

end Zune
