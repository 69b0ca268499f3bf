import Verif.Lemmas.Fill
import Verif.Props.Trailing
import Verif.Props.Exact
/-! C73: fill bytes and the numbers of restart markers do not matter after the headers. -/

namespace Zune

open Spec

variable {segs : Bool}

theorem runScans_fol {d d' : Decoder} {bufs v : List (List I16)} {rd rd' r : List UInt8}
    (h : SameData segs rd r) (e : runScans bufs ⟨d, rd⟩ = (.ok v, ⟨d', rd'⟩)) :
    ∃ r', runScans bufs ⟨d, r⟩ = (.ok v, ⟨d', r'⟩) := by
  unfold runScans at e ⊢
  dsimp only at e ⊢
  rcases hs : progScans bufs { dec := d, io := progIo ⟨d, rd⟩ } with ⟨x, t⟩
  rw [hs] at e
  simp only [Prod.mk.injEq] at e
  obtain ⟨rfl, e2⟩ := e
  injection e2 with e2 e3
  obtain ⟨k, r', e'⟩ := progScans_fol (t := { dec := d, io := progIo ⟨d, rd⟩ }) h hs
  refine ⟨r', ?_⟩
  rw [show ({ dec := d, io := progIo ⟨d, r⟩ } : T) =
    Swaps.swap { dec := d, io := progIo ⟨d, rd⟩ } none r from rfl, e', ← e2]
  rfl

theorem decodeProgressive_fol {d d' : Decoder} {v rd rd' r : List UInt8} (h : SameData segs rd r)
    (e : decodeProgressive ⟨d, rd⟩ = (.ok v, ⟨d', rd'⟩)) :
    ∃ r', decodeProgressive ⟨d, r⟩ = (.ok v, ⟨d', r'⟩) := by
  unfold decodeProgressive at e ⊢
  have hg : ∀ (f : Decoder → M H (List UInt8)) d r, (getDec >>= f) ⟨d, r⟩ = f d ⟨d, r⟩ := fun _ _ _ => rfl
  rw [hg] at e ⊢
  have ho : ∀ {α β} (o : Out α) (f : α → M H β) {s s' : H} {v : β}, (M.ofOut o >>= f) s = (.ok v, s') →
      ∃ a, o = .ok a ∧ f a s = (.ok v, s') := by
    intro α β o f s s' v h
    obtain ⟨a, s1, h1, h2⟩ := M.bind_ok_inv h
    injection h1 with h1 h3
    subst h3
    exact ⟨a, h1, h2⟩
  obtain ⟨_, h1, e1⟩ := ho _ _ e
  obtain ⟨⟨mw, bufs⟩, h2, e2⟩ := ho _ _ e1
  dsimp only at e2
  obtain ⟨bufs', ⟨d1, rd1⟩, h3, h4⟩ := M.bind_ok_inv e2
  obtain ⟨r1, e3⟩ := runScans_fol h h3
  obtain ⟨a, ha, e4⟩ := loc_finishProgressive _ _ _ _ _ _ _ h4
  have hf : RdFree (finishProgressive bufs' mw) := by
    have : RdFree (finishSetup mw) := by unfold finishSetup; rdfree
    unfold finishProgressive
    refine RdFree.bind this fun _ => ?_
    split
    rdfree
  refine ⟨r1, ?_⟩
  rw [h1, h2]
  refine (M.bind_ok (show M.ofOut (Out.ok _) _ = (.ok _, _) from rfl)).trans ?_
  refine (M.bind_ok (show M.ofOut (Out.ok (mw, bufs)) _ = (.ok (mw, bufs), _) from rfl)).trans ?_
  refine (M.bind_ok e3).trans ?_
  rw [hf d1 r1 rd1, h4]

theorem decodeBaseline_fol {d d' : Decoder} {v rd rd' r : List UInt8} (h : SameData false rd r)
    (e : decodeBaseline ⟨d, rd⟩ = (.ok v, ⟨d', rd'⟩)) : ∃ r', decodeBaseline ⟨d, r⟩ = (.ok v, ⟨d', r'⟩) := by
  obtain ⟨s, d1, t, e1, e2, e3, e4, e5⟩ := decodeBaseline_inv e
  obtain ⟨k, r', -, e6⟩ := strips_fol s s.mcuHeight _ none r (MRel.clear h) _ _ e2
  refine ⟨r', ?_⟩
  rw [decodeBaseline_of e1 (t := Swaps.swap t k r') e6, ← e3]
  exact Prod.ext e5 rfl

/-- After the headers. -/
theorem decodeInternal_fol {d d1 d' : Decoder} {head v rd r : List UInt8}
    (hh : decodeHeaders ⟨d, head ++ rd⟩ = (.ok (), ⟨d1, rd⟩))
    (h : SameData false rd r ∨ d1.isProgressive = true ∧ SameData true rd r)
    (e : d.decodeBuffer (head ++ rd) = (.ok v, d')) : d.decodeBuffer (head ++ r) = (.ok v, d') := by
  obtain ⟨a, ha, ea⟩ := decodeHeaders_loc hh
  obtain rfl : head = a := List.append_cancel_right ha
  have key : ∀ x, d.decodeBuffer (head ++ x) =
      (((if d1.isProgressive then decodeProgressive else decodeBaseline) ⟨d1, x⟩).1,
        ((if d1.isProgressive then decodeProgressive else decodeBaseline) ⟨d1, x⟩).2.dec) := by
    intro x
    unfold Decoder.decodeBuffer decodeInternal
    rw [M.bind_ok (ea x)]
    rfl
  rw [key] at e ⊢
  rcases hm : (if d1.isProgressive then decodeProgressive else decodeBaseline) ⟨d1, rd⟩ with ⟨x, ⟨d2, rd2⟩⟩
  rw [hm] at e
  cases e
  by_cases hp : d1.isProgressive = true
  · rw [if_pos hp] at hm ⊢
    rcases h with h | ⟨-, h⟩
    · obtain ⟨r', e⟩ := decodeProgressive_fol h hm
      rw [e]
    · obtain ⟨r', e⟩ := decodeProgressive_fol h hm
      rw [e]
  · rw [if_neg hp] at hm ⊢
    rcases h with h | ⟨h, -⟩
    · obtain ⟨r', e⟩ := decodeBaseline_fol h hm
      rw [e]
    · exact absurd h hp

/-! ### C73 -/

/-- The headers of a file: SOI, segments that are not SOS, the first SOS segment. -/
def Spec.fileHead (a : List Segment) (sos : List UInt8) : List UInt8 :=
  0xFF :: 0xD8 :: (a.flatMap Segment.bytes ++ Segment.bytes ⟨0xDA, sos⟩)

theorem fileHead_rd {a : List Segment} {sos rd rd' : List UInt8} (ha : ∀ s ∈ a, s.Header)
    (hs : sos.length + 2 < 65536) {d d1 : Decoder}
    (h : decodeHeaders ⟨d, fileHead a sos ++ rd⟩ = (.ok (), ⟨d1, rd'⟩)) : rd' = rd := by
  unfold fileHead at h
  rw [List.cons_append, List.cons_append, List.append_assoc, decodeHeaders_segments ha] at h
  obtain ⟨d2, -, h⟩ := h
  have h : parseSos ⟨d2, lenBytes sos.length ++ sos ++ rd⟩ = (.ok (), ⟨d1, rd'⟩) := HL.sos_inv h
  exact ((segOk_iff (m := 0xDA) hs).1 h).1

theorem headers_of_decode {d d' : Decoder} {buf v : List UInt8} (e : d.decodeBuffer buf = (.ok v, d')) :
    ∃ s, decodeHeaders ⟨d, buf⟩ = (.ok (), s) := by
  unfold Decoder.decodeBuffer at e
  rcases hm : decodeInternal ⟨d, buf⟩ with ⟨x, s⟩
  rw [hm] at e
  cases e
  unfold decodeInternal at hm
  obtain ⟨_, s1, h1, -⟩ := M.bind_ok_inv hm
  exact ⟨s1, h1⟩

/-- **C73**, the data of the first scan: for every decoder and all headers, if the data after the headers
differ only in the fill bytes before markers and in the numbers of the restart markers, up to the first other
marker, then one file is decoded to an image exactly if the other is, and to the same one. -/
theorem c73_scan_partial (d : Decoder) (a : List Segment) (sos data data' : List UInt8)
    (ha : ∀ s ∈ a, s.Header) (hs : sos.length + 2 < 65536) (h : SameData false data data')
    (v : List UInt8) (d' : Decoder) :
    d.decodeBuffer (fileHead a sos ++ data) = (.ok v, d') ↔
      d.decodeBuffer (fileHead a sos ++ data') = (.ok v, d') := by
  have key : ∀ {x y : List UInt8}, SameData false x y → d.decodeBuffer (fileHead a sos ++ x) = (.ok v, d') →
      d.decodeBuffer (fileHead a sos ++ y) = (.ok v, d') := by
    intro x y h e
    obtain ⟨⟨d1, rd⟩, hh⟩ := headers_of_decode e
    obtain rfl := fileHead_rd ha hs hh
    exact decodeInternal_fol hh (Or.inl h) e
  exact ⟨key h, key h.symm⟩

/-- **C73**, all scans of a progressive file. -/
theorem c73_progressive_partial (d : Decoder) (a : List Segment) (sos data data' : List UInt8)
    (ha : ∀ s ∈ a, s.Header) (hs : sos.length + 2 < 65536) (h : SameData true data data')
    (hp : (d.readHeaders (fileHead a sos ++ data)).2.isProgressive = true) (v : List UInt8) (d' : Decoder) :
    d.decodeBuffer (fileHead a sos ++ data) = (.ok v, d') ↔
      d.decodeBuffer (fileHead a sos ++ data') = (.ok v, d') := by
  have key : ∀ {x y : List UInt8}, SameData true x y →
      (∀ d1 r, decodeHeaders ⟨d, fileHead a sos ++ x⟩ = (.ok (), ⟨d1, r⟩) → d1.isProgressive = true) →
      d.decodeBuffer (fileHead a sos ++ x) = (.ok v, d') →
      d.decodeBuffer (fileHead a sos ++ y) = (.ok v, d') := by
    intro x y h hp e
    obtain ⟨⟨d1, rd⟩, hh⟩ := headers_of_decode e
    obtain rfl := fileHead_rd ha hs hh
    exact decodeInternal_fol hh (Or.inr ⟨hp _ _ hh, h⟩) e
  have h1 : ∀ d1 r, decodeHeaders ⟨d, fileHead a sos ++ data⟩ = (.ok (), ⟨d1, r⟩) → d1.isProgressive = true := by
    intro d1 r hh
    unfold Decoder.readHeaders at hp
    rw [hh] at hp
    exact hp
  refine ⟨key h h1, key h.symm fun d1 r hh => ?_⟩
  obtain rfl := fileHead_rd ha hs hh
  obtain ⟨b, hb, eb⟩ := decodeHeaders_loc hh
  obtain rfl : fileHead a sos = b := List.append_cancel_right hb
  exact h1 _ _ (eb _)

/-- The segments of a file of 8 x 24 samples with restart intervals of `n` data units. -/
def fillSegments (sof n : UInt8) : List Segment :=
  [⟨0xDB, 0 :: List.replicate 64 1⟩, ⟨sof, [8, 0, 24, 0, 8, 1, 1, 0x11, 0]⟩,
    ⟨0xC4, [0x00, 1, 1] ++ List.replicate 14 0 ++ [3, 6]⟩, ⟨0xC4, [0x10, 1] ++ List.replicate 15 0 ++ [0]⟩,
    ⟨0xDD, [0, n]⟩]

theorem fillSegments_header (sof n : UInt8) (h : sof = 0xC0 ∨ sof = 0xC2) : ∀ s ∈ fillSegments sof n, s.Header := by
  intro s hs
  unfold fillSegments at hs
  simp only [List.mem_cons, List.not_mem_nil, or_false] at hs
  rcases hs with rfl | rfl | rfl | rfl | rfl
  · exact ⟨by decide, by decide, by decide⟩
  · rcases h with rfl | rfl <;> exact ⟨by decide, by decide, by decide⟩
  · exact ⟨by decide, by decide, by decide⟩
  · exact ⟨by decide, by decide, by decide⟩
  · exact ⟨by show 2 + 2 < 65536; decide, by show (0xDD : UInt8) ≠ 0xFF; decide,
      by show (0xDD : UInt8) ≠ 0xDA; decide⟩

/-- Three data units in two restart intervals, written in two ways. -/
def fillData : List UInt8 := [0x52, 0xBF, 0xFF, 0xD0, 0x57, 0xFF, 0xD9]
def filledData : List UInt8 := [0x52, 0xBF, 0xFF, 0xFF, 0xFF, 0xD5, 0x57, 0xFF, 0xFF, 0xD9]

theorem fillData_same : SameData false fillData filledData := by
  refine .byte (by decide) (.byte (by decide) (.restart 0 2 ⟨by decide, by decide⟩ ⟨by decide, by decide⟩ ?_))
  exact .byte (by decide) (.marker 0 1 [] (by decide) (by decide))

/-- A DC scan and an AC scan, written in two ways. -/
def fillScans : List UInt8 := [0x55, 0x5F] ++ [0xFF, 0xDA, 0, 8, 1, 1, 0, 1, 63, 0] ++ [0x1F, 0xFF, 0xD9]
def filledScans : List UInt8 := [0x55, 0x5F] ++ [0xFF, 0xFF, 0xDA, 0, 8, 1, 1, 0, 1, 63, 0] ++
  [0x1F, 0xFF, 0xFF, 0xFF, 0xD9]

theorem fillScans_same : SameData true fillScans filledScans := by
  refine .byte (by decide) (.byte (by decide) (.segment 0 1 (p := [1, 1, 0, 1, 63, 0]) rfl (by decide) (by decide)
    (by unfold IsRst; decide) (by decide) ?_))
  exact .byte (by decide) (.marker 0 2 [] (by decide) (by decide))

/-- What the files are decoded to. -/
def fillImage (a b c : UInt8) : List UInt8 := List.replicate 64 a ++ List.replicate 64 b ++ List.replicate 64 c

theorem fillData_ok : ((Decoder.new ⟨false, false⟩).decodeBuffer
    (fileHead (fillSegments 0xC0 2) [1, 1, 0, 0, 63, 0] ++ fillData)).1 = .ok (fillImage 128 129 128) := by
  decide +kernel

/-- The files meet the hypotheses of `c73_scan_partial`. -/
example : ((Decoder.new ⟨false, false⟩).decodeBuffer
    (fileHead (fillSegments 0xC0 2) [1, 1, 0, 0, 63, 0] ++ filledData)).1 = .ok (fillImage 128 129 128) := by
  have h := fillData_ok
  rcases hd : (Decoder.new ⟨false, false⟩).decodeBuffer
    (fileHead (fillSegments 0xC0 2) [1, 1, 0, 0, 63, 0] ++ fillData) with ⟨r, d'⟩
  rw [hd] at h
  cases h
  rw [(c73_scan_partial _ _ _ _ _ (fillSegments_header _ _ (Or.inl rfl)) (by decide) fillData_same _ _).1 hd]

theorem fillScans_ok : ((Decoder.new ⟨false, false⟩).decodeBuffer
    (fileHead (fillSegments 0xC2 0) [1, 1, 0, 0, 0, 0] ++ fillScans)).1 = .ok (fillImage 128 129 129) ∧
    ((Decoder.new ⟨false, false⟩).readHeaders
      (fileHead (fillSegments 0xC2 0) [1, 1, 0, 0, 0, 0] ++ fillScans)).2.isProgressive = true := by
  decide +kernel

/-- And those of `c73_progressive_partial`. -/
example : ((Decoder.new ⟨false, false⟩).decodeBuffer
    (fileHead (fillSegments 0xC2 0) [1, 1, 0, 0, 0, 0] ++ filledScans)).1 = .ok (fillImage 128 129 129) := by
  obtain ⟨h, hp⟩ := fillScans_ok
  rcases hd : (Decoder.new ⟨false, false⟩).decodeBuffer
    (fileHead (fillSegments 0xC2 0) [1, 1, 0, 0, 0, 0] ++ fillScans) with ⟨r, d'⟩
  rw [hd] at h
  cases h
  rw [(c73_progressive_partial _ _ _ _ _ (fillSegments_header _ _ (Or.inr rfl)) (by decide) fillScans_same hp _ _).1 hd]

/-- **C73 is false** of the headers: a fill byte before the first segment makes the decoder refuse the file. -/
theorem c73_false : ((Decoder.new ⟨false, false⟩).decodeBuffer
    (fileHead (fillSegments 0xC0 2) [1, 1, 0, 0, 63, 0] ++ fillData)).1 = .ok (fillImage 128 129 128) ∧
    ((Decoder.new ⟨false, false⟩).decodeBuffer (0xFF :: 0xD8 :: 0xFF ::
      (fileHead (fillSegments 0xC0 2) [1, 1, 0, 0, 63, 0] ++ fillData).drop 2)).1 = .err .format :=
  ⟨fillData_ok, by decide +kernel⟩

/-- **C73 is false** of every short file: after any header segments, a fill byte before the marker of the next
one makes the decoder refuse the file, because the marker and the first byte of the length are read as the
length of an unknown segment, which is at least `0xC000`. -/
theorem c73_headers_false (d : Decoder) (a : List Segment) (m : UInt8) (l : List UInt8)
    (ha : ∀ s ∈ a, s.Header) (hm : 0xC0 ≤ m) (hl : l.length + 1 < 0xC000) (v : List UInt8) (d' : Decoder) :
    d.decodeBuffer (0xFF :: 0xD8 :: (a.flatMap Segment.bytes ++ 0xFF :: 0xFF :: m :: l)) ≠ (.ok v, d') := by
  intro e
  obtain ⟨⟨d1, rd⟩, hh⟩ := headers_of_decode e
  rw [decodeHeaders_segments ha] at hh
  obtain ⟨d2, -, hh⟩ := hh
  rw [HL.segment (by decide) (by decide) (by split <;> decide)] at hh
  obtain ⟨d3, rd3, h, ⟨fuel, hh⟩⟩ := hh
  have h : skipSegment ⟨d2, m :: l⟩ = (.ok (), ⟨d3, rd3⟩) := h
  unfold skipSegment at h
  obtain ⟨len, s1, h1, h2⟩ := M.bind_ok_inv h
  cases l with
  | nil => cases h1
  | cons b l =>
    have h1 : (Out.ok (be16 m b), (⟨d2, l⟩ : H)) = (Out.ok len, s1) := h1
    cases h1
    have h0 : 0xC0 ≤ m.toNat := UInt8.le_iff_toNat_le.1 hm
    rw [List.length_cons] at hl
    have e1 := be16_toNat m b
    rw [if_neg (by rw [UInt16.lt_iff_toNat_lt, e1]; show ¬ _ < 2; omega)] at h2
    have h2 : (Out.ok (), (⟨d2, l.drop ((be16 m b).toNat - 2)⟩ : H)) = (Out.ok (), ⟨d3, rd3⟩) := h2
    rw [List.drop_eq_nil_of_le (by omega)] at h2
    cases h2
    cases fuel with
    | zero => cases hh
    | succ f => cases hh

end Zune
