import Verif.Lemmas.NoPanicProg
import Verif.Props.Exact
/-! The headers of files with at most three components do not panic. -/

namespace Zune
open M (wp wp_bind wp_mono wp_pure wp_throw wp_idx wp_idx_of wp_okOr wp_ofOut wp_failIf wp_ite_of
  wp_diverge wp_panic wp_unwrap wp_get wp_modify)
open Spec

/-- What the segments need of the decoder. -/
structure Narrow (d : Decoder) : Prop where
  qt : d.qtTables.length = 4
  comps : d.components.length ≤ 3
  info : d.info.components.toNat ≤ d.components.length

/-- The segment is no frame header of more than three components. -/
def SmallSeg (s : Segment) : Prop :=
  ∀ k, Marker.fromU8 s.marker = some (.sof k) → ∀ n, s.payload[5]? = some n → n.toNat ≤ 3

theorem sof_count {d d' : Decoder} {k : SofMarker} {p t rd' : List UInt8}
    {x y h1 h2 w1 w2 n : UInt8} {cs cs' : List Component}
    (h : SofOk k d (lenBytes p.length ++ p ++ t) d' rd' x y h1 h2 w1 w2 n cs cs')
    (hp : p.length + 2 < 65536) : p[5]? = some n := by
  have hb := h.bytes
  have hx := h.len
  simp only [lenBytes, List.cons_append, List.nil_append, List.cons.injEq] at hb
  obtain ⟨rfl, rfl, hb⟩ := hb
  rw [be16_lenBytes hp] at hx
  have : (p ++ t)[5]? = some n := by rw [hb]; rfl
  rwa [List.getElem?_append_left (by omega)] at this

theorem narrow_sof {d d' : Decoder} {k : SofMarker} {rd rd' : List UInt8}
    {x y h1 h2 w1 w2 n : UInt8} {cs cs' : List Component}
    (h : SofOk k d rd d' rd' x y h1 h2 w1 w2 n cs cs') (hn : n.toNat ≤ 3) : Narrow d' := by
  have hc := h.count
  rw [h.dec]
  refine ⟨rfl, ?_, ?_⟩
  · show cs'.length ≤ 3
    omega
  · show n.toNat ≤ cs'.length
    omega

theorem wp_segStep_narrow {s : Segment} (hs : s.Header) (hm : SmallSeg s) {d : Decoder} (h : Narrow d)
    (t : List UInt8) : wp False False (segStep s.marker) (fun _ s' => Narrow s'.dec) (fun _ _ => True)
      ⟨d, lenBytes s.payload.length ++ s.payload ++ t⟩ := by
  have only : ∀ d', TablesOnly d d' → Narrow d' := by
    intro d' ht
    have e := ht.dec
    exact ⟨by rw [ht.qt]; exact h.qt, by rw [e]; exact h.comps, by rw [e]; exact h.info⟩
  unfold segStep
  split
  · rename_i mk hmk
    refine wp_mono (wp_parseMarkerInner_raw mk (fun _ => h.qt) fun _ => ⟨h.comps, h.info⟩) ?_ fun _ _ h => h
    rintro _ ⟨d', rd'⟩ ⟨-, -, e⟩
    unfold Effect at e
    split at e
    · obtain ⟨x, y, h1, h2, w1, w2, n, cs, cs', e⟩ := e
      exact narrow_sof e (hm _ hmk n (sof_count e hs.len))
    · obtain ⟨x, y, h1, h2, w1, w2, n, cs, cs', e⟩ := e
      exact narrow_sof e (hm _ hmk n (sof_count e hs.len))
    · exact absurd (fromU8_sos hmk) hs.sos
    · exact only _ e
  · refine wp_mono wp_skipSegment ?_ fun _ _ _ => trivial
    rintro _ ⟨d', rd'⟩ ⟨rfl, -⟩
    exact h

/-- One segment of the loop. -/
theorem headerLoop_segment {last m : UInt8} {count : Nat} {d : Decoder} {rd : List UInt8}
    (hl : last ≠ 0xFF) (hm : Marker.fromU8 m ≠ some .sos) (hc : count ≤ 2) (f : Nat) :
    headerLoop (f + 2) last count ⟨d, 0xFF :: m :: rd⟩ =
      (segStep m >>= fun _ => headerLoop f m 1) ⟨d, rd⟩ := by
  have step1 : headerLoop (f + 2) last count ⟨d, 0xFF :: m :: rd⟩ =
      headerLoop (f + 1) 0xFF (count + 1) ⟨d, m :: rd⟩ := by
    have h1 : readByte ⟨d, 0xFF :: m :: rd⟩ = (.ok 0xFF, ⟨d, m :: rd⟩) := rfl
    have h2 : headerStep last count 0xFF ⟨d, m :: rd⟩ = (.ok (some count), ⟨d, m :: rd⟩) := by
      unfold headerStep
      rw [if_neg hl]; rfl
    have h3 : getDec ⟨d, m :: rd⟩ = (.ok d, ⟨d, m :: rd⟩) := rfl
    conv_lhs => unfold headerLoop
    rw [M.bind_ok h1, M.bind_ok h2]
    show (getDec >>= _) _ = _
    rw [M.bind_ok h3]
    simp only [show ¬ (d.options.getStrictMode = true ∧ count + 1 > 3) by omega, if_false]
  rw [step1]
  have h1 : readByte ⟨d, m :: rd⟩ = (.ok m, ⟨d, rd⟩) := rfl
  conv_lhs => unfold headerLoop
  rw [M.bind_ok h1]
  have h2 : headerStep 0xFF (count + 1) m ⟨d, rd⟩ =
      (segStep m >>= fun _ => Pure.pure (some 0)) ⟨d, rd⟩ := by
    unfold headerStep segStep
    rw [if_pos rfl]
    cases hf : Marker.fromU8 m with
    | none => rfl
    | some mk =>
      dsimp only
      have : mk ≠ .sos := by rintro rfl; exact hm hf
      simp only [if_neg this]
  rw [M.bind_apply, h2, M.bind_apply, M.bind_apply]
  rcases hs : segStep m ⟨d, rd⟩ with ⟨_ | _ | _ | _, s1⟩ <;> simp only [M.pure_apply]
  have h3 : getDec s1 = (.ok s1.dec, s1) := rfl
  rw [M.bind_ok h3]
  simp

/-- The scan header ends the loop. -/
theorem headerLoop_sos {last : UInt8} {count : Nat} {d : Decoder} {rd : List UInt8}
    (hl : last ≠ 0xFF) (hc : count ≤ 2) (f : Nat) :
    headerLoop (f + 2) last count ⟨d, 0xFF :: 0xDA :: rd⟩ = parseSos ⟨d, rd⟩ := by
  have step1 : headerLoop (f + 2) last count ⟨d, 0xFF :: 0xDA :: rd⟩ =
      headerLoop (f + 1) 0xFF (count + 1) ⟨d, 0xDA :: rd⟩ := by
    have h1 : readByte ⟨d, 0xFF :: 0xDA :: rd⟩ = (.ok 0xFF, ⟨d, 0xDA :: rd⟩) := rfl
    have h2 : headerStep last count 0xFF ⟨d, 0xDA :: rd⟩ = (.ok (some count), ⟨d, 0xDA :: rd⟩) := by
      unfold headerStep
      rw [if_neg hl]; rfl
    have h3 : getDec ⟨d, 0xDA :: rd⟩ = (.ok d, ⟨d, 0xDA :: rd⟩) := rfl
    conv_lhs => unfold headerLoop
    rw [M.bind_ok h1, M.bind_ok h2]
    show (getDec >>= _) _ = _
    rw [M.bind_ok h3]
    simp only [show ¬ (d.options.getStrictMode = true ∧ count + 1 > 3) by omega, if_false]
  rw [step1]
  have h1 : readByte ⟨d, 0xDA :: rd⟩ = (.ok 0xDA, ⟨d, rd⟩) := rfl
  conv_lhs => unfold headerLoop
  rw [M.bind_ok h1]
  have h2 : headerStep 0xFF (count + 1) 0xDA ⟨d, rd⟩ = (parseSos >>= fun _ => Pure.pure none) ⟨d, rd⟩ := rfl
  rw [M.bind_apply, h2, M.bind_apply]
  rcases hs : parseSos ⟨d, rd⟩ with ⟨_ | _ | _ | _, s1⟩ <;> rfl

theorem headerLoop_returns : ∀ {segs : List Segment} {last : UInt8} {count fuel : Nat} {d : Decoder}
    {rest : List UInt8}, (∀ s ∈ segs, s.Header ∧ SmallSeg s) → last ≠ 0xFF → count ≤ 2 → Narrow d →
    2 * segs.length + 2 ≤ fuel →
    M.Returns (headerLoop fuel last count ⟨d, segs.flatMap Segment.bytes ++ 0xFF :: 0xDA :: rest⟩).1
  | [], last, count, fuel, d, rest, _, hl, hc, hd, hf => by
    obtain ⟨f, rfl⟩ : ∃ f, fuel = f + 2 := ⟨fuel - 2, by simp at hf; omega⟩
    show M.Returns (headerLoop (f + 2) last count ⟨d, 0xFF :: 0xDA :: rest⟩).1
    rw [headerLoop_sos hl hc]
    exact M.wp_returns (wp_parseMarkerInner_raw (pn := False) (dv := False) (s := ⟨d, rest⟩) .sos
      (fun _ => hd.qt) fun _ => ⟨hd.comps, hd.info⟩)
  | s :: ss, last, count, fuel, d, rest, hs, hl, hc, hd, hf => by
    obtain ⟨h1, h2⟩ := hs s (by simp)
    obtain ⟨f, rfl⟩ : ∃ f, fuel = f + 2 := ⟨fuel - 2, by omega⟩
    have e : (s :: ss).flatMap Segment.bytes ++ 0xFF :: 0xDA :: rest =
        0xFF :: s.marker :: (lenBytes s.payload.length ++ s.payload ++
          (ss.flatMap Segment.bytes ++ 0xFF :: 0xDA :: rest)) := by
      simp [Segment.bytes]
    rw [e, headerLoop_segment hl (fun h' => h1.sos (fromU8_sos h')) hc]
    have hw := wp_segStep_narrow h1 h2 hd (ss.flatMap Segment.bytes ++ 0xFF :: 0xDA :: rest)
    rw [M.bind_apply]
    rcases hx : segStep s.marker ⟨d, lenBytes s.payload.length ++ s.payload ++
      (ss.flatMap Segment.bytes ++ 0xFF :: 0xDA :: rest)⟩ with ⟨_ | _ | _ | _, ⟨d1, rd1⟩⟩
    · obtain ⟨rfl, -⟩ := (segOk_iff h1.len).1 hx
      refine headerLoop_returns (fun s h => hs s (by simp [h])) h1.ff (by decide) (M.wp_ok hw hx) ?_
      rw [List.length_cons] at hf
      omega
    · exact Or.inr ⟨_, rfl⟩
    · unfold wp at hw
      rw [hx] at hw
      exact hw.elim
    · unfold wp at hw
      rw [hx] at hw
      exact hw.elim

theorem decodeHeaders_returns (cpu : Cpu) (o : Options) {segs : List Segment}
    (hs : ∀ s ∈ segs, s.Header ∧ SmallSeg s) (rest : List UInt8) :
    M.Returns (decodeHeaders ⟨Decoder.newWithOptions cpu o,
      0xFF :: 0xD8 :: (segs.flatMap Segment.bytes ++ 0xFF :: 0xDA :: rest)⟩).1 := by
  have e : decodeHeaders ⟨Decoder.newWithOptions cpu o,
      0xFF :: 0xD8 :: (segs.flatMap Segment.bytes ++ 0xFF :: 0xDA :: rest)⟩ =
      headerLoop ((segs.flatMap Segment.bytes ++ 0xFF :: 0xDA :: rest).length + 2 + 1) 0 0
        ⟨Decoder.newWithOptions cpu o, segs.flatMap Segment.bytes ++ 0xFF :: 0xDA :: rest⟩ := by
    unfold decodeHeaders
    have h1 : readU16 .exhausted ⟨Decoder.newWithOptions cpu o,
      0xFF :: 0xD8 :: (segs.flatMap Segment.bytes ++ 0xFF :: 0xDA :: rest)⟩ = (.ok 0xffd8,
        ⟨Decoder.newWithOptions cpu o, segs.flatMap Segment.bytes ++ 0xFF :: 0xDA :: rest⟩) := rfl
    rw [M.bind_ok h1]
    rfl
  rw [e]
  refine headerLoop_returns hs (by decide) (by decide) ⟨rfl, Nat.zero_le _, Nat.le_refl _⟩ ?_
  have : 2 * segs.length ≤ (segs.flatMap Segment.bytes).length := by
    induction segs with
    | nil => simp
    | cons s ss ih =>
      have := ih (fun s h => hs s (by simp [h])) (by
        unfold decodeHeaders
        have h1 : readU16 .exhausted ⟨Decoder.newWithOptions cpu o,
          0xFF :: 0xD8 :: (ss.flatMap Segment.bytes ++ 0xFF :: 0xDA :: rest)⟩ = (.ok 0xffd8,
            ⟨Decoder.newWithOptions cpu o, ss.flatMap Segment.bytes ++ 0xFF :: 0xDA :: rest⟩) := rfl
        rw [M.bind_ok h1]
        rfl)
      rw [List.flatMap_cons, List.length_append, List.length_cons]
      unfold Segment.bytes at *
      simp only [List.length_cons]
      omega
  rw [List.length_append]
  omega

/-! ### Files that end inside the headers -/

theorem headerLoop_end (fuel : Nat) (last : UInt8) (count : Nat) (d : Decoder) :
    (headerLoop (fuel + 1) last count ⟨d, []⟩).1 = .err .format := rfl

/-- Headers that end in the middle of a segment are refused. -/
theorem headerLoop_cut : ∀ {segs : List Segment} {last : UInt8} {count fuel : Nat} {d : Decoder}
    {p : List UInt8}, (∀ s ∈ segs, s.Header ∧ SmallSeg s) → last ≠ 0xFF → count ≤ 2 → Narrow d →
    p.length + 1 ≤ fuel → p <+: segs.flatMap Segment.bytes ++ [0xFF] →
    ∃ e, (headerLoop fuel last count ⟨d, p⟩).1 = .err e
  | segs, last, count, fuel, d, [], _, _, _, _, hf, _ => by
    obtain ⟨f, rfl⟩ : ∃ f, fuel = f + 1 := ⟨fuel - 1, by simp at hf; omega⟩
    exact ⟨_, headerLoop_end _ _ _ _⟩
  | segs, last, count, fuel, d, [a], _, hl, hc, _, hf, hp => by
    obtain ⟨f, rfl⟩ : ∃ f, fuel = f + 2 := ⟨fuel - 2, by simp at hf; omega⟩
    have ha : a = 0xFF := by
      cases segs with
      | nil =>
        obtain ⟨t, ht⟩ := hp
        simpa using congrArg List.head? ht
      | cons s ss =>
        obtain ⟨t, ht⟩ := hp
        simpa [Segment.bytes] using congrArg List.head? ht
    subst ha
    have h1 : readByte ⟨d, [0xFF]⟩ = (.ok 0xFF, ⟨d, []⟩) := rfl
    have h2 : headerStep last count 0xFF ⟨d, []⟩ = (.ok (some count), ⟨d, []⟩) := by
      unfold headerStep
      rw [if_neg hl]; rfl
    have h3 : getDec ⟨d, []⟩ = (.ok d, ⟨d, []⟩) := rfl
    unfold headerLoop
    rw [M.bind_ok h1, M.bind_ok h2]
    show ∃ e, ((getDec >>= _) _).1 = .err e
    rw [M.bind_ok h3]
    simp only [show ¬ (d.options.getStrictMode = true ∧ count + 1 > 3) by omega, if_false]
    exact ⟨_, headerLoop_end _ _ _ _⟩
  | [], last, count, fuel, d, a :: b :: p, _, _, _, _, _, hp => by
    have := hp.length_le
    simp at this
  | s :: ss, last, count, fuel, d, a :: b :: p, hs, hl, hc, hd, hf, hp => by
    obtain ⟨h1, h2⟩ := hs s (by simp)
    obtain ⟨f, rfl⟩ : ∃ f, fuel = f + 3 := ⟨fuel - 3, by simp at hf; omega⟩
    have e : (s :: ss).flatMap Segment.bytes ++ [0xFF] = 0xFF :: s.marker ::
        (lenBytes s.payload.length ++ s.payload ++ (ss.flatMap Segment.bytes ++ [0xFF])) := by
      simp [Segment.bytes]
    rw [e, List.cons_prefix_cons, List.cons_prefix_cons] at hp
    obtain ⟨rfl, rfl, hp⟩ := hp
    rw [headerLoop_segment (f := f + 1) hl (fun h' => h1.sos (fromU8_sos h')) hc, M.bind_apply]
    have hw : wp False False (segStep s.marker) (fun _ _ => True) (fun _ _ => True) ⟨d, p⟩ := by
      unfold segStep
      split
      · exact wp_mono (wp_parseMarkerInner_raw _ (fun _ => hd.qt) fun _ => ⟨hd.comps, hd.info⟩)
          (fun _ _ _ => trivial) fun _ _ _ => trivial
      · exact wp_mono wp_skipSegment (fun _ _ _ => trivial) fun _ _ _ => trivial
    by_cases hlen : p.length < (lenBytes s.payload.length ++ s.payload).length
    · rcases hx : segStep s.marker ⟨d, p⟩ with ⟨_ | e | _ | _, ⟨d1, rd1⟩⟩
      · obtain ⟨x, y, r, e1, -, e2⟩ := segStep_exact hx
        dsimp only at e1 e2
        subst e1
        have hl2 : (lenBytes s.payload.length ++ s.payload).length = s.payload.length + 2 := by
          simp [lenBytes]
        rw [hl2, List.length_cons, List.length_cons] at hlen
        simp only [lenBytes, List.cons_append, List.nil_append, List.cons_prefix_cons] at hp
        obtain ⟨rfl, rfl, -⟩ := hp
        rw [be16_lenBytes h1.len, List.drop_eq_nil_of_le (by omega)] at e2
        subst e2
        exact ⟨_, headerLoop_end _ _ _ _⟩
      · exact ⟨e, rfl⟩
      · unfold wp at hw
        rw [hx] at hw
        exact hw.elim
      · unfold wp at hw
        rw [hx] at hw
        exact hw.elim
    · obtain ⟨q, rfl, hq⟩ : ∃ q, p = lenBytes s.payload.length ++ s.payload ++ q ∧
          q <+: ss.flatMap Segment.bytes ++ [0xFF] := by
        obtain ⟨t, ht⟩ := hp
        rcases List.append_eq_append_iff.1 ht with ⟨a, e1, e2⟩ | ⟨a, e1, e2⟩
        · have h0 := congrArg List.length e1
          rw [List.length_append (as := p)] at h0
          have ha : a = [] := List.eq_nil_of_length_eq_zero (by omega)
          subst ha
          rw [List.append_nil] at e1
          exact ⟨[], by rw [e1, List.append_nil], List.nil_prefix⟩
        · exact ⟨a, e1, t, e2.symm⟩
      have hw := wp_segStep_narrow h1 h2 hd q
      rcases hx : segStep s.marker ⟨d, lenBytes s.payload.length ++ s.payload ++ q⟩ with
        ⟨_ | e | _ | _, ⟨d1, rd1⟩⟩
      · obtain ⟨rfl, -⟩ := (segOk_iff h1.len).1 hx
        refine headerLoop_cut (fun s h => hs s (by simp [h])) h1.ff (by decide) (M.wp_ok hw hx) ?_ hq
        simp only [List.length_cons, List.length_append] at hf
        omega
      · exact ⟨e, rfl⟩
      · unfold wp at hw
        rw [hx] at hw
        exact hw.elim
      · unfold wp at hw
        rw [hx] at hw
        exact hw.elim

/-- A file that ends before the marker of the scan is refused. -/
theorem decodeHeaders_cut (cpu : Cpu) (o : Options) {segs : List Segment}
    (hs : ∀ s ∈ segs, s.Header ∧ SmallSeg s) {p : List UInt8}
    (hp : p <+: segs.flatMap Segment.bytes ++ [0xFF]) :
    ∃ e, (decodeHeaders ⟨Decoder.newWithOptions cpu o, 0xFF :: 0xD8 :: p⟩).1 = .err e := by
  have e : decodeHeaders ⟨Decoder.newWithOptions cpu o, 0xFF :: 0xD8 :: p⟩ =
      headerLoop (p.length + 2 + 1) 0 0 ⟨Decoder.newWithOptions cpu o, p⟩ := by
    unfold decodeHeaders
    have h1 : readU16 .exhausted ⟨Decoder.newWithOptions cpu o, 0xFF :: 0xD8 :: p⟩ = (.ok 0xffd8,
        ⟨Decoder.newWithOptions cpu o, p⟩) := rfl
    rw [M.bind_ok h1]
    rfl
  rw [e]
  exact headerLoop_cut hs (by decide) (by decide) ⟨rfl, Nat.zero_le _, Nat.le_refl _⟩ (by omega) hp

end Zune
