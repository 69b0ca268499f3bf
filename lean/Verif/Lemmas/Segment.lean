import Verif.Lemmas.HeaderLoop
import Verif.Lemmas.Local
import Mathlib.Tactic.Tauto
/-! The marker loop over complete segments. -/

namespace Zune

/-- What is done with the marker byte `m` of a segment. -/
def segStep (m : UInt8) : M H Unit :=
  match Marker.fromU8 m with
  | some mk => parseMarkerInner mk
  | none => skipSegment

theorem segStep_loc (m : UInt8) : Loc (segStep m) ∨ segStep m = skipSegment := by
  unfold segStep
  split
  · unfold parseMarkerInner
    split
    · exact .inl (loc_parseStartOfFrame _)
    · exact .inl (Loc.bind (Loc.modDec _) fun _ => loc_parseStartOfFrame _)
    · exact .inl (Loc.throw _)
    · exact .inl loc_parseDqt
    · exact .inl loc_parseHuffman
    · exact .inl loc_parseSos
    · exact .inl (Loc.throw _)
    · exact .inl (Loc.throw _)
    · exact .inl (Loc.throw _)
    · left; loc
    all_goals exact .inr rfl
  · exact .inr rfl

/-- A segment that was accepted was consumed up to its declared length. -/
def Exact (s s' : H) : Prop :=
  ∃ x y r, s.rd = x :: y :: r ∧ 2 ≤ (be16 x y).toNat ∧ s'.rd = r.drop ((be16 x y).toNat - 2)

open M (wp wp_bind wp_mono wp_ite_of)

theorem exact_of_append {s s' : H} {x y : UInt8} {a : List UInt8}
    (h : s.rd = x :: y :: (a ++ s'.rd)) (hl : a.length + 2 = (be16 x y).toNat) : Exact s s' := by
  refine ⟨x, y, _, h, by omega, ?_⟩
  rw [show (be16 x y).toNat - 2 = a.length by omega]
  simp

theorem SofOk.exact {sof : SofMarker} {d d' : Decoder} {rd rd' : List UInt8}
    {x y h1 h2 w1 w2 n : UInt8} {cs cs' : List Component}
    (h : SofOk sof d rd d' rd' x y h1 h2 w1 w2 n cs cs') : Exact ⟨d, rd⟩ ⟨d', rd'⟩ := by
  have hb : rd = x :: y :: ((8 :: h1 :: h2 :: w1 :: w2 :: n :: cs'.flatMap Component.bytes) ++ rd') := by
    rw [h.bytes]; simp
  refine exact_of_append (s := ⟨d, rd⟩) (s' := ⟨d', rd'⟩) hb ?_
  have : ∀ l : List Component, (l.flatMap Component.bytes).length = 3 * l.length := by
    intro l
    induction l with
    | nil => rfl
    | cons c l ih =>
      rw [List.flatMap_cons, List.length_append, ih, List.length_cons]
      show 3 + _ = _
      omega
  simp only [List.length_cons]
  rw [this, h.count, h.len]
  omega

theorem SosOk.exact {d d' : Decoder} {rd rd' : List UInt8} {x y n ss se a : UInt8}
    {ps : List (UInt8 × UInt8)} (h : SosOk d rd d' rd' x y n ss se a ps) :
    Exact ⟨d, rd⟩ ⟨d', rd'⟩ := by
  have hb : rd = x :: y :: ((n :: (ps.flatMap (fun p => [p.1, p.2]) ++ [ss, se, a])) ++ rd') := by
    rw [h.bytes]; simp
  refine exact_of_append (s := ⟨d, rd⟩) (s' := ⟨d', rd'⟩) hb ?_
  have : ∀ l : List (UInt8 × UInt8), (l.flatMap (fun p => [p.1, p.2])).length = 2 * l.length := by
    intro l
    induction l with
    | nil => rfl
    | cons c l ih =>
      rw [List.flatMap_cons, List.length_append, ih, List.length_cons]
      simp only [List.length_cons, List.length_nil]
      omega
  simp only [List.length_cons, List.length_append, List.length_nil]
  rw [this, h.count, h.len]
  omega

theorem wp_exact_skipSegment (s : H) :
    wp True False skipSegment (fun _ s' => Exact s s' ∧ s'.dec = s.dec) (fun _ _ => True) s := by
  unfold skipSegment
  rw [wp_bind]
  refine wp_readU16 (fun a b r hr => ?_) (fun _ => trivial)
  refine wp_ite_of (fun _ => trivial) fun hl => ?_
  have hl' : ¬ (be16 a b).toNat < 2 := hl
  refine ⟨⟨a, b, r, hr, by omega, rfl⟩, rfl⟩

theorem wp_exact (m : UInt8) (s : H) :
    wp True False (segStep m) (fun _ s' => Exact s s') (fun _ _ => True) s := by
  have skip : wp True False skipSegment (fun _ s' => Exact s s') (fun _ _ => True) s :=
    wp_mono (wp_exact_skipSegment s) (fun _ _ h => h.1) (fun _ _ _ => trivial)
  unfold segStep
  split
  · unfold parseMarkerInner
    split
    · refine wp_mono (wp_parseStartOfFrame _ (fun h => absurd trivial h)) ?_ (fun _ _ h => h)
      rintro _ s' ⟨x, y, h1, h2, w1, w2, n, cs, cs', h⟩
      exact h.exact
    · rw [wp_bind, wp_modDec]
      refine wp_mono (wp_parseStartOfFrame _ (fun h => absurd trivial h)) ?_ (fun _ _ h => h)
      rintro _ s' ⟨x, y, h1, h2, w1, w2, n, cs, cs', h⟩
      exact h.exact
    · trivial
    · refine wp_mono wp_parseDqt ?_ (fun _ _ _ => trivial)
      rintro _ s' ⟨⟨x, y, a, hb, hl⟩, -⟩
      exact exact_of_append hb hl
    · refine wp_mono wp_parseHuffman ?_ (fun _ _ _ => trivial)
      rintro _ s' ⟨⟨x, y, a, hb, hl⟩, -⟩
      exact exact_of_append hb hl
    · refine wp_mono (wp_parseSos (fun h => absurd trivial h)) ?_ (fun _ _ h => h)
      rintro _ s' ⟨x, y, n, ss, se, a, ps, h⟩
      exact h.exact
    · trivial
    · trivial
    · trivial
    · rw [wp_bind]
      refine wp_readU16 (fun a b r hr => ?_) (fun _ => trivial)
      refine wp_ite_of (fun _ => trivial) fun hl => ?_
      rw [wp_bind]
      refine wp_readU16 (fun a' b' r' hr' => ?_) (fun _ => trivial)
      rw [wp_modDec]
      dsimp only at hr'
      have h4 : be16 a b = 4 := Decidable.not_not.1 hl
      refine exact_of_append (x := a) (y := b) (a := [a', b']) ?_ ?_
      · rw [hr, hr']; rfl
      · rw [h4]; rfl
    all_goals exact skip
  · exact skip

theorem segStep_exact {m : UInt8} {s s' : H} (h : segStep m s = (.ok (), s')) : Exact s s' := by
  have hw := wp_exact m s
  have hq := M.wp_ok hw h
  exact hq

/-! ### The loop -/

/-- The marker loop ends with `Ok` at `⟨d', rd'⟩`. -/
def HL (last : UInt8) (count : Nat) (d : Decoder) (rd : List UInt8) (d' : Decoder)
    (rd' : List UInt8) : Prop :=
  ∃ fuel, headerLoop fuel last count ⟨d, rd⟩ = (.ok (), ⟨d', rd'⟩)

theorem HL.fuel {last : UInt8} {count : Nat} {d d' : Decoder} {rd rd' : List UInt8}
    (h : HL last count d rd d' rd') {fuel : Nat} (hf : rd.length < fuel) :
    headerLoop fuel last count ⟨d, rd⟩ = (.ok (), ⟨d', rd'⟩) := by
  obtain ⟨f, h⟩ := h
  obtain ⟨a, rfl, e⟩ := headerLoop_loc _ _ _ _ _ _ _ h
  exact e rd' fuel hf

theorem decodeHeaders_iff {d d' : Decoder} {rd rd' : List UInt8} :
    decodeHeaders ⟨d, 0xFF :: 0xD8 :: rd⟩ = (.ok (), ⟨d', rd'⟩) ↔ HL 0 0 d rd d' rd' := by
  have e : decodeHeaders ⟨d, 0xFF :: 0xD8 :: rd⟩ = headerLoop (rd.length + 2 + 1) 0 0 ⟨d, rd⟩ := by
    unfold decodeHeaders
    have h1 : readU16 .exhausted ⟨d, 0xFF :: 0xD8 :: rd⟩ = (.ok 0xffd8, ⟨d, rd⟩) := rfl
    rw [M.bind_ok h1]
    rfl
  rw [e]
  exact ⟨fun h => ⟨_, h⟩, fun h => h.fuel (by omega)⟩

/-- Only whether the last byte is `FF` matters. -/
theorem HL.last {last last' : UInt8} {count : Nat} {d d' : Decoder} {rd rd' : List UInt8}
    (h1 : last ≠ 0xFF) (h2 : last' ≠ 0xFF) :
    HL last count d rd d' rd' ↔ HL last' count d rd d' rd' := by
  unfold HL
  refine exists_congr fun fuel => ?_
  cases fuel with
  | zero => simp [headerLoop]
  | succ f =>
    have : headerLoop (f + 1) last count = headerLoop (f + 1) last' count := by
      unfold headerLoop headerStep
      simp only [if_neg h1, if_neg h2]
    rw [this]

/-- One segment of the loop. -/
theorem HL.segment {last m : UInt8} {count : Nat} {d d' : Decoder} {rd rd' : List UInt8}
    (hl : last ≠ 0xFF) (hm : Marker.fromU8 m ≠ some .sos) (hc : count ≤ 2) :
    HL last count d (0xFF :: m :: rd) d' rd' ↔
      ∃ d1 rd1, segStep m ⟨d, rd⟩ = (.ok (), ⟨d1, rd1⟩) ∧ HL m 1 d1 rd1 d' rd' := by
  have step1 : ∀ f, headerLoop (f + 1) last count ⟨d, 0xFF :: m :: rd⟩ =
      headerLoop f 0xFF (count + 1) ⟨d, m :: rd⟩ := by
    intro f
    have h1 : readByte ⟨d, 0xFF :: m :: rd⟩ = (.ok 0xFF, ⟨d, m :: rd⟩) := rfl
    have h2 : headerStep last count 0xFF ⟨d, m :: rd⟩ = (.ok (some count), ⟨d, m :: rd⟩) := by
      unfold headerStep
      rw [if_neg hl]; rfl
    have h3 : getDec ⟨d, m :: rd⟩ = (.ok d, ⟨d, m :: rd⟩) := rfl
    conv_lhs => unfold headerLoop
    rw [M.bind_ok h1, M.bind_ok h2]
    show (getDec >>= _) _ = _
    rw [M.bind_ok h3]
    simp only [show ¬ (d.options.getStrictMode = true ∧ count + 1 > 3) by omega, if_false]
  have step2 : ∀ f, headerLoop (f + 1) 0xFF (count + 1) ⟨d, m :: rd⟩ =
      (segStep m >>= fun _ => headerLoop f m 1) ⟨d, rd⟩ := by
    intro f
    have h1 : readByte ⟨d, m :: rd⟩ = (.ok m, ⟨d, rd⟩) := rfl
    conv_lhs => unfold headerLoop
    rw [M.bind_ok h1]
    have h2 : headerStep 0xFF (count + 1) m ⟨d, rd⟩ =
        (segStep m >>= fun _ => Pure.pure (some 0)) ⟨d, rd⟩ := by
      unfold headerStep segStep
      rw [if_pos rfl]
      cases hf : Marker.fromU8 m with
      | none => rfl
      | some mk =>
        dsimp only
        have : mk ≠ .sos := by rintro rfl; exact hm hf
        simp only [if_neg this]
    rw [M.bind_apply, h2, M.bind_apply, M.bind_apply]
    rcases hs : segStep m ⟨d, rd⟩ with ⟨_ | _ | _ | _, s1⟩ <;> simp only [M.pure_apply]
    have h3 : getDec s1 = (.ok s1.dec, s1) := rfl
    rw [M.bind_ok h3]
    simp
  constructor
  · rintro ⟨fuel, h⟩
    obtain ⟨f, rfl⟩ : ∃ f, fuel = f + 1 := by
      cases fuel with
      | zero => simp [headerLoop] at h
      | succ f => exact ⟨f, rfl⟩
    rw [step1] at h
    obtain ⟨f, rfl⟩ : ∃ f', f = f' + 1 := by
      cases f with
      | zero => simp [headerLoop] at h
      | succ f => exact ⟨f, rfl⟩
    rw [step2] at h
    obtain ⟨_, ⟨d1, rd1⟩, e1, e2⟩ := M.bind_ok_inv h
    exact ⟨d1, rd1, e1, f, e2⟩
  · rintro ⟨d1, rd1, e1, f, e2⟩
    refine ⟨f + 2, ?_⟩
    rw [step1, step2, M.bind_ok e1]
    exact e2

/-- The two length bytes of a segment with `n` bytes of payload. -/
def lenBytes (n : Nat) : List UInt8 := [UInt8.ofNat ((n + 2) / 256), UInt8.ofNat ((n + 2) % 256)]

theorem be16_lenBytes {n : Nat} (h : n + 2 < 65536) :
    (be16 (UInt8.ofNat ((n + 2) / 256)) (UInt8.ofNat ((n + 2) % 256))).toNat = n + 2 := by
  unfold be16
  rw [u16_toNat]
  have h1 : (UInt8.ofNat ((n + 2) / 256)).toNat = (n + 2) / 256 := by
    rw [UInt8.toNat_ofNat']; omega
  have h2 : (UInt8.ofNat ((n + 2) % 256)).toNat = (n + 2) % 256 := by
    rw [UInt8.toNat_ofNat']; omega
  rw [h1, h2]
  omega

/-- A complete segment is accepted and turns `d` into `d'`. -/
def SegOk (m : UInt8) (payload : List UInt8) (d d' : Decoder) : Prop :=
  segStep m ⟨d, lenBytes payload.length ++ payload⟩ = (.ok (), ⟨d', []⟩)

theorem skipSegment_complete {payload : List UInt8} (hp : payload.length + 2 < 65536)
    (d : Decoder) (t : List UInt8) :
    skipSegment ⟨d, lenBytes payload.length ++ payload ++ t⟩ = (.ok (), ⟨d, t⟩) := by
  have h := be16_lenBytes hp
  unfold skipSegment
  have h1 : readU16 .exhausted ⟨d, lenBytes payload.length ++ payload ++ t⟩ =
      (.ok (be16 (UInt8.ofNat ((payload.length + 2) / 256))
        (UInt8.ofNat ((payload.length + 2) % 256))), ⟨d, payload ++ t⟩) := rfl
  rw [M.bind_ok h1]
  rw [if_neg]
  · unfold consume
    dsimp only
    rw [h]
    simp
  · intro hlt
    have : (be16 (UInt8.ofNat ((payload.length + 2) / 256))
        (UInt8.ofNat ((payload.length + 2) % 256))).toNat < 2 := hlt
    omega

theorem segOk_iff {m : UInt8} {payload rest rd' : List UInt8} {d d' : Decoder}
    (hp : payload.length + 2 < 65536) :
    segStep m ⟨d, lenBytes payload.length ++ payload ++ rest⟩ = (.ok (), ⟨d', rd'⟩) ↔
      rd' = rest ∧ SegOk m payload d d' := by
  unfold SegOk
  rcases segStep_loc m with hloc | hskip
  · have ex : ∀ t rd', segStep m ⟨d, lenBytes payload.length ++ payload ++ t⟩ =
        (.ok (), ⟨d', rd'⟩) → rd' = t := by
      intro t rd' h
      obtain ⟨x, y, r, h1, h2, h3⟩ := segStep_exact h
      simp only [lenBytes, List.cons_append, List.nil_append, List.cons.injEq] at h1
      obtain ⟨rfl, rfl, rfl⟩ := h1
      rw [be16_lenBytes hp] at h3
      simpa using h3
    have move : ∀ t t', segStep m ⟨d, lenBytes payload.length ++ payload ++ t⟩ =
        (.ok (), ⟨d', t⟩) →
        segStep m ⟨d, lenBytes payload.length ++ payload ++ t'⟩ = (.ok (), ⟨d', t'⟩) := by
      intro t t' h
      obtain ⟨a, ha, e⟩ := hloc _ _ _ _ _ h
      rw [List.append_cancel_right ha]
      exact e t'
    constructor
    · intro h
      have := ex _ _ h
      subst this
      exact ⟨rfl, by simpa using move _ [] h⟩
    · rintro ⟨rfl, h⟩
      exact move [] rd' (by simpa using h)
  · rw [hskip, skipSegment_complete hp]
    have := skipSegment_complete hp d []
    rw [List.append_nil] at this
    rw [this]
    simp only [Prod.mk.injEq, true_and, H.mk.injEq, and_true]
    tauto

/-! ### Lists of segments -/

/-- A header segment: marker byte and payload. -/
structure Segment where
  marker : UInt8
  payload : List UInt8

/-- The bytes of a segment (T.81 B.1.1.4): `FF`, marker, big-endian length, payload. -/
def Segment.bytes (s : Segment) : List UInt8 :=
  0xFF :: s.marker :: (lenBytes s.payload.length ++ s.payload)

/-- The length fits into its field and the marker is neither a fill byte nor SOS. -/
structure Segment.Header (s : Segment) : Prop where
  len : s.payload.length + 2 < 65536
  ff : s.marker ≠ 0xFF
  sos : s.marker ≠ 0xDA

theorem fromU8_sos {m : UInt8} (h : Marker.fromU8 m = some .sos) : m = 0xDA := by
  revert h
  have : ∀ m : UInt8, Marker.fromU8 m = some .sos → m = 0xDA := by
    intro m
    have : ∀ n : Fin 256, Marker.fromU8 (UInt8.ofNat n) = some .sos → UInt8.ofNat n = 0xDA := by
      decide +kernel
    have h := this ⟨m.toNat, m.toNat_lt⟩
    simpa using h
  exact this m

/-- The segments are accepted one after the other. -/
def SegsOk : List Segment → Decoder → Decoder → Prop
  | [], d, d' => d' = d
  | s :: ss, d, d' => ∃ d1, SegOk s.marker s.payload d d1 ∧ SegsOk ss d1 d'

theorem SegsOk.append {a b : List Segment} {d d' : Decoder} :
    SegsOk (a ++ b) d d' ↔ ∃ d1, SegsOk a d d1 ∧ SegsOk b d1 d' := by
  induction a generalizing d with
  | nil => simp [SegsOk]
  | cons s a ih =>
    simp only [List.cons_append, SegsOk, ih]
    constructor
    · rintro ⟨d1, h1, d2, h2, h3⟩; exact ⟨d2, ⟨d1, h1, h2⟩, h3⟩
    · rintro ⟨d2, ⟨d1, h1, h2⟩, h3⟩; exact ⟨d1, h1, d2, h2, h3⟩

/-- The loop over a list of segments. -/
theorem HL.segments : ∀ {segs : List Segment} {last : UInt8} {count : Nat} {d d' : Decoder}
    {rest rd' : List UInt8}, (∀ s ∈ segs, s.Header) → last ≠ 0xFF → count ≤ 2 →
    (HL last count d (segs.flatMap Segment.bytes ++ rest) d' rd' ↔
      ∃ d1, SegsOk segs d d1 ∧ HL 0 (if segs = [] then count else 1) d1 rest d' rd')
  | [], last, count, d, d', rest, rd', _, hl, _ => by
    simp only [List.flatMap_nil, List.nil_append, SegsOk, exists_eq_left, if_true]
    exact HL.last hl (by decide)
  | s :: ss, last, count, d, d', rest, rd', hs, hl, hc => by
    have h := hs s (by simp)
    have e : (s :: ss).flatMap Segment.bytes ++ rest =
        0xFF :: s.marker :: (lenBytes s.payload.length ++ s.payload ++
          (ss.flatMap Segment.bytes ++ rest)) := by
      simp [Segment.bytes]
    rw [e, HL.segment hl (fun h' => h.sos (fromU8_sos h')) hc]
    simp only [segOk_iff h.len]
    have ih := fun d1 => HL.segments (segs := ss) (last := s.marker) (count := 1) (d := d1)
      (d' := d') (rest := rest) (rd' := rd') (fun s hs' => hs s (by simp [hs'])) h.ff (by decide)
    constructor
    · rintro ⟨d1, rd1, ⟨rfl, h1⟩, h2⟩
      rw [ih] at h2
      obtain ⟨d2, h2, h3⟩ := h2
      refine ⟨d2, ⟨d1, h1, h2⟩, ?_⟩
      rw [if_neg (by simp)]
      split at h3 <;> exact h3
    · rintro ⟨d2, ⟨d1, h1, h2⟩, h3⟩
      refine ⟨d1, _, ⟨rfl, h1⟩, (ih _).2 ⟨d2, h2, ?_⟩⟩
      rw [if_neg (by simp)] at h3
      split <;> exact h3

/-- Header segments, then anything. -/
theorem decodeHeaders_segments {segs : List Segment} (hs : ∀ s ∈ segs, s.Header) {d d' : Decoder}
    {rest rd' : List UInt8} :
    decodeHeaders ⟨d, 0xFF :: 0xD8 :: (segs.flatMap Segment.bytes ++ rest)⟩ = (.ok (), ⟨d', rd'⟩) ↔
      ∃ d1, SegsOk segs d d1 ∧ HL 0 (if segs = [] then 0 else 1) d1 rest d' rd' := by
  rw [decodeHeaders_iff, HL.segments hs (by decide) (by decide)]

/-- Without strict mode the number of bytes since the last marker is irrelevant. -/
theorem headerLoop_count : ∀ (fuel : Nat) (last : UInt8) (c c' : Nat) (d : Decoder)
    (rd : List UInt8), d.options.getStrictMode = false →
    headerLoop fuel last c ⟨d, rd⟩ = headerLoop fuel last c' ⟨d, rd⟩
  | 0, _, _, _, _, _, _ => rfl
  | fuel + 1, last, c, c', d, [], hd => rfl
  | fuel + 1, last, c, c', d, m :: rd, hd => by
    have h1 : readByte ⟨d, m :: rd⟩ = (.ok m, ⟨d, rd⟩) := rfl
    unfold headerLoop
    rw [M.bind_ok h1, M.bind_ok h1]
    by_cases hl : last = 0xFF
    · have : headerStep last c m = headerStep last c' m := by
        unfold headerStep
        rw [if_pos hl, if_pos hl]
      rw [this]
    · have hs : ∀ c, headerStep last c m ⟨d, rd⟩ = (.ok (some c), ⟨d, rd⟩) := by
        intro c
        unfold headerStep
        rw [if_neg hl]; rfl
      rw [M.bind_ok (hs c), M.bind_ok (hs c')]
      have h3 : getDec ⟨d, rd⟩ = (.ok d, ⟨d, rd⟩) := rfl
      show (getDec >>= _) _ = (getDec >>= _) _
      rw [M.bind_ok h3, M.bind_ok h3]
      simp only [hd, Bool.false_eq_true, false_and, if_false]
      exact headerLoop_count fuel _ _ _ _ _ hd

theorem HL.count {last : UInt8} {c c' : Nat} {d d' : Decoder} {rd rd' : List UInt8}
    (hd : d.options.getStrictMode = false) :
    HL last c d rd d' rd' ↔ HL last c' d rd d' rd' := by
  unfold HL
  exact exists_congr fun fuel => by rw [headerLoop_count fuel last c c' d rd hd]

end Zune
