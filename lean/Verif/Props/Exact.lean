import Verif.Props.Limits
import Verif.Props.Scan
import Verif.Lemmas.FileSegments
/-! # Properties C07, C08, C30, C52: exactly what is accepted -/

namespace Zune
open Zune.Spec

/-! ### C52, C08: frame headers -/

namespace Spec

/-- A component of a frame header (T.81 B.2.2): identifier, sampling factors, table. -/
structure CompSpec where
  id : UInt8
  h : Nat
  v : Nat
  tq : Nat

/-- The three bytes of a component. -/
def CompSpec.bytes (c : CompSpec) : List UInt8 := componentBytes c.id c.h c.v c.tq

/-- The payload of a frame header for 8 bit samples. -/
def framePayload (w h : Nat) (cs : List CompSpec) : List UInt8 :=
  8 :: (twoBytes h ++ twoBytes w ++ UInt8.ofNat cs.length :: cs.flatMap CompSpec.bytes)

/-- The numbers fit their fields. -/
def FrameFits (w h : Nat) (cs : List CompSpec) : Prop :=
  w < 65536 ∧ h < 65536 ∧ cs.length < 256 ∧ ∀ c ∈ cs, c.h < 16 ∧ c.v < 16 ∧ c.tq < 256

/-- What the decoder asks of a frame header. -/
structure FrameLegal (d : Decoder) (w h : Nat) (cs : List CompSpec) : Prop where
  width : 0 < w ∧ w ≤ d.options.getMaxWidth
  height : 0 < h ∧ h ≤ d.options.getMaxHeight
  some : cs ≠ []
  comps : ∀ c ∈ cs, (c.id = 1 ∨ c.id = 2 ∨ c.id = 3) ∧ (c.h = 1 ∨ c.h = 2 ∨ c.h = 4 ∨ c.h = 8) ∧
    (c.v = 1 ∨ c.v = 2 ∨ c.v = 4 ∨ c.v = 8) ∧
    ∃ qt : List Nat, c.tq < 4 ∧ d.qtTables[c.tq]? = Option.some (Option.some qt)

end Spec

/-- The component read for a specification. -/
def Spec.CompSpec.component (c : CompSpec) : Component :=
  { componentId := if c.id = 1 then .y else if c.id = 2 then .cb else .cr
    verticalSample := c.v
    horizontalSample := c.h
    quantTableNumber := c.tq
    widthStride := c.h
    id := c.id }

theorem from_spec {c : CompSpec} (hid : c.id = 1 ∨ c.id = 2 ∨ c.id = 3)
    (hh : c.h = 1 ∨ c.h = 2 ∨ c.h = 4 ∨ c.h = 8) (hv : c.v = 1 ∨ c.v = 2 ∨ c.v = 4 ∨ c.v = 8)
    (hq : c.tq < 4) :
    Component.from c.id (UInt8.ofNat (16 * c.h + c.v)) (UInt8.ofNat c.tq) = .ok c.component := by
  obtain ⟨id, h, v, tq⟩ := c
  dsimp only at *
  have : tq = 0 ∨ tq = 1 ∨ tq = 2 ∨ tq = 3 := by omega
  rcases hid with rfl | rfl | rfl <;> rcases hh with rfl | rfl | rfl | rfl <;>
    rcases hv with rfl | rfl | rfl | rfl <;> rcases this with rfl | rfl | rfl | rfl <;> rfl

theorem readComponents_spec (d : Decoder) : ∀ (cs : List CompSpec),
    (∀ c ∈ cs, (c.id = 1 ∨ c.id = 2 ∨ c.id = 3) ∧ (c.h = 1 ∨ c.h = 2 ∨ c.h = 4 ∨ c.h = 8) ∧
      (c.v = 1 ∨ c.v = 2 ∨ c.v = 4 ∨ c.v = 8) ∧ c.tq < 4) →
    readComponents cs.length ⟨d, cs.flatMap CompSpec.bytes⟩ = (.ok (cs.map CompSpec.component), ⟨d, []⟩)
  | [], _ => rfl
  | c :: cs, h => by
    obtain ⟨h1, h2, h3, h4⟩ := h c (by simp)
    have ih := readComponents_spec d cs fun c hc => h c (by simp [hc])
    rw [List.length_cons]
    unfold readComponents
    have r1 : readExact 3 .format ⟨d, (c :: cs).flatMap CompSpec.bytes⟩ =
        (.ok [c.id, UInt8.ofNat (16 * c.h + c.v), UInt8.ofNat c.tq], ⟨d, cs.flatMap CompSpec.bytes⟩) := by
      unfold readExact
      rw [if_neg (by simp [CompSpec.bytes, componentBytes])]
      rfl
    rw [M.bind_ok r1]
    have r2 : M.ofOut (Component.from c.id (UInt8.ofNat (16 * c.h + c.v)) (UInt8.ofNat c.tq))
        (⟨d, cs.flatMap CompSpec.bytes⟩ : H) = (.ok c.component, ⟨d, cs.flatMap CompSpec.bytes⟩) := by
      rw [from_spec h1 h2 h3 h4]; rfl
    show (M.ofOut _ >>= _) _ = _
    rw [M.bind_ok r2, M.bind_ok ih]
    rfl

theorem setup_exists : ∀ (cs : List Component) (d : Decoder),
    (∀ c ∈ cs, ∃ qt : List Nat, d.qtTables[c.quantTableNumber]? = some (some qt)) →
    ∃ l d', setupComponents cs ⟨d, []⟩ = (.ok l, ⟨d', []⟩)
  | [], d, _ => ⟨[], d, rfl⟩
  | c :: cs, d, h => by
    obtain ⟨qt, hq⟩ := h c (by simp)
    obtain ⟨l, d', ih⟩ := setup_exists cs (compDec d c) fun c' hc => h c' (by simp [hc])
    exact ⟨_, d', setup_cons hq ih⟩

theorem flatMap_bytes_inj : ∀ (cs : List CompSpec) (cs' : List Component) (a b : List UInt8),
    cs.length = cs'.length → cs.flatMap CompSpec.bytes ++ a = cs'.flatMap Component.bytes ++ b →
    List.Forall₂ (fun c c' => c.bytes = c'.bytes) cs cs'
  | [], [], _, _, _, _ => .nil
  | [], _ :: _, _, _, hl, _ => by simp at hl
  | c :: cs, [], _, _, hl, _ => by simp at hl
  | c :: cs, c' :: cs', a, b, hl, h => by
    rw [List.flatMap_cons, List.flatMap_cons, List.append_assoc, List.append_assoc] at h
    obtain ⟨h1, h2⟩ := List.append_inj h rfl
    exact .cons h1 (flatMap_bytes_inj cs cs' a b (by simpa using hl) h2)

theorem forall₂_mem {α β} {R : α → β → Prop} {l : List α} {l' : List β} (h : List.Forall₂ R l l') :
    ∀ a ∈ l, ∃ b ∈ l', R a b := by
  induction h with
  | nil => simp
  | @cons a b l l' h _ ih =>
    intro x hx
    rcases List.mem_cons.1 hx with rfl | hx
    · exact ⟨b, by simp, h⟩
    · obtain ⟨y, hy, e⟩ := ih x hx
      exact ⟨y, by simp [hy], e⟩

theorem pow_cases {n : Nat} (h : ∃ k, k ≤ 3 ∧ n = 2 ^ k) : n = 1 ∨ n = 2 ∨ n = 4 ∨ n = 8 := by
  obtain ⟨k, hk, rfl⟩ := h
  have : k = 0 ∨ k = 1 ∨ k = 2 ∨ k = 3 := by omega
  rcases this with rfl | rfl | rfl | rfl <;> simp

theorem compBytes_inj {c : CompSpec} {c' : Component} (hc : c.h < 16 ∧ c.v < 16 ∧ c.tq < 256)
    (ok : ComponentOk c') (h : c.bytes = c'.bytes) :
    c.id = c'.id ∧ c.h = c'.horizontalSample ∧ c.v = c'.verticalSample ∧ c.tq = c'.quantTableNumber := by
  have h' : [c.id, UInt8.ofNat (16 * c.h + c.v), UInt8.ofNat c.tq] = [c'.id, UInt8.ofNat
    (16 * c'.horizontalSample + c'.verticalSample), UInt8.ofNat c'.quantTableNumber] := h
  simp only [List.cons.injEq, and_true] at h'
  obtain ⟨e1, e2, e3⟩ := h'
  have e2 := congrArg UInt8.toNat e2
  have e3 := congrArg UInt8.toNat e3
  rw [UInt8.toNat_ofNat', UInt8.toNat_ofNat'] at e2 e3
  have a1 := pow_cases ok.h
  have a2 := pow_cases ok.v
  have a3 := ok.tq
  refine ⟨e1, ?_, ?_, ?_⟩ <;> omega

/-- **C52, C08.** A frame header is accepted exactly when the size is not zero and within the
limits (inclusive), there is a component, and every component has identifier 1 to 3, sampling
factors that are powers of two up to 8, and one of the four tables that is defined. -/
theorem c52_accepted_iff (sof : SofMarker) (d : Decoder) {w h : Nat} {cs : List CompSpec}
    (fits : FrameFits w h cs) (rest : List UInt8) :
    (∃ s', parseStartOfFrame sof ⟨d, lenBytes (framePayload w h cs).length ++
      framePayload w h cs ++ rest⟩ = (.ok (), s')) ↔ FrameLegal d w h cs := by
  obtain ⟨hw, hh, hn, hc⟩ := fits
  have hnt : (UInt8.ofNat cs.length).toNat = cs.length := by
    rw [UInt8.toNat_ofNat']; omega
  have ew := be16_twoBytes hw
  have eh := be16_twoBytes hh
  constructor
  · rintro ⟨s', hs⟩
    obtain ⟨x, y, h1, h2, w1, w2, n, fs, cs', G⟩ := M.wp_ok
      (wp_parseStartOfFrame (pn := True) (dv := False) sof (fun h => absurd trivial h)) hs
    have hb := G.bytes
    simp only [framePayload, twoBytes, lenBytes, List.cons_append, List.nil_append,
      List.cons.injEq] at hb
    obtain ⟨-, -, -, rfl, rfl, rfl, rfl, rfl, hb⟩ := hb
    have hlen : cs.length = cs'.length := by rw [G.count, hnt]
    have hw0 := G.wpos
    have hh0 := G.hpos
    refine ⟨⟨?_, by rw [← ew]; exact G.wmax⟩, ⟨?_, by rw [← eh]; exact G.hmax⟩, ?_, ?_⟩
    · rw [← ew]
      rcases Nat.eq_zero_or_pos (be16 (UInt8.ofNat (w / 256)) (UInt8.ofNat (w % 256))).toNat with h0 | h0
      · exact absurd (UInt16.toNat_inj.1 (by simpa using h0)) hw0
      · exact h0
    · rw [← eh]
      rcases Nat.eq_zero_or_pos (be16 (UInt8.ofNat (h / 256)) (UInt8.ofNat (h % 256))).toNat with h0 | h0
      · exact absurd (UInt16.toNat_inj.1 (by simpa using h0)) hh0
      · exact h0
    · rintro rfl
      exact G.npos rfl
    · intro c hcm
      obtain ⟨c', hc', e⟩ := forall₂_mem (flatMap_bytes_inj cs cs' rest _ hlen hb) c hcm
      have ok := G.componentsOk c' hc'
      obtain ⟨e1, e2, e3, e4⟩ := compBytes_inj (hc c hcm) ok e
      obtain ⟨_, _, _, hq⟩ := G.setup.mem hc'
      refine ⟨?_, by rw [e2]; exact pow_cases ok.h, by rw [e3]; exact pow_cases ok.v,
        c'.quantTable, by rw [e4]; exact ok.tq, by rw [e4]; exact hq⟩
      rw [e1]
      rcases ok.id with h | h | h
      · exact .inl h.1
      · exact .inr (.inl h.1)
      · exact .inr (.inr h.1)
  · rintro ⟨⟨w0, wm⟩, ⟨h0, hm⟩, hne, hcs⟩
    have hl : (cs.flatMap CompSpec.bytes).length = 3 * (UInt8.ofNat cs.length).toNat := by
      rw [hnt]
      clear hc hn hnt hne hcs
      induction cs with
      | nil => rfl
      | cons c cs ih =>
        rw [List.flatMap_cons, List.length_append, ih, List.length_cons]
        show 3 + _ = _
        omega
    have hn0 : UInt8.ofNat cs.length ≠ 0 := by
      intro h
      have := congrArg UInt8.toNat h
      rw [hnt] at this
      exact hne (List.length_eq_zero_iff.1 this)
    obtain ⟨l, d', hset⟩ := setup_exists (cs.map CompSpec.component)
      (sofStart d sof (UInt16.ofNat h) (UInt16.ofNat w) (UInt8.ofNat cs.length)) (by
        intro c hc
        obtain ⟨c, hcm, rfl⟩ := List.mem_map.1 hc
        obtain ⟨-, -, -, qt, -, h⟩ := hcs c hcm
        exact ⟨qt, h⟩)
    have := sof_complete sof d hw hh (by omega) (by omega) wm hm hn0 hl
      (fun d => by
        rw [hnt]
        exact readComponents_spec d cs fun c hc => by
          obtain ⟨a, b, c, _, h4, _⟩ := hcs c hc
          exact ⟨a, b, c, h4⟩) hset
    obtain ⟨a, ha, e⟩ := loc_parseStartOfFrame sof _ _ _ _ _ this
    rw [List.append_nil] at ha
    have e' := e rest
    rw [← ha] at e'
    have hp : lenBytes (framePayload w h cs).length ++ framePayload w h cs =
        lenBytes ((cs.flatMap CompSpec.bytes).length + 6) ++ 8 :: (twoBytes h ++ twoBytes w ++
          UInt8.ofNat cs.length :: cs.flatMap CompSpec.bytes) := by
      have : (framePayload w h cs).length = (cs.flatMap CompSpec.bytes).length + 6 := by
        simp [framePayload, twoBytes]
      rw [this]; rfl
    rw [hp]
    exact ⟨_, e'⟩

/-- The header of an image of 300 by 200 samples with 2 x 2 subsampling is legal once table 0 is
defined, under limits of 300 and 200. -/
example : FrameFits 300 200 [⟨1, 2, 2, 0⟩, ⟨2, 1, 1, 0⟩, ⟨3, 1, 1, 0⟩] ∧
    FrameLegal { (Decoder.new ⟨false, false⟩).setLimits 300 200 with
      qtTables := [some (List.replicate 64 1), none, none, none] } 300 200
      [⟨1, 2, 2, 0⟩, ⟨2, 1, 1, 0⟩, ⟨3, 1, 1, 0⟩] := by
  refine ⟨⟨by decide, by decide, by decide, by simp⟩, ⟨by decide, by decide⟩, ⟨by decide, by decide⟩,
    by simp, ?_⟩
  intro c hc
  simp only [List.mem_cons, List.not_mem_nil, or_false] at hc
  rcases hc with rfl | rfl | rfl <;>
    exact ⟨by decide, by decide, by decide, List.replicate 64 1, by decide, rfl⟩

/-- Under a limit of 199 it is not. -/
example : ¬ FrameLegal { (Decoder.new ⟨false, false⟩).setLimits 300 199 with
      qtTables := [some (List.replicate 64 1), none, none, none] } 300 200
      [⟨1, 2, 2, 0⟩, ⟨2, 1, 1, 0⟩, ⟨3, 1, 1, 0⟩] :=
  fun h => absurd h.height.2 (by decide)

/-! ### C07: bytes between segments -/

/-- The loop over bytes that are not `FF`. -/
theorem HL.skip : ∀ {g : List UInt8} {last : UInt8} {count : Nat} {d d' : Decoder}
    {rest rd' : List UInt8}, (∀ b ∈ g, b ≠ 0xFF) → last ≠ 0xFF →
    (HL last count d (g ++ rest) d' rd' ↔
      (d.options.getStrictMode = true → g = [] ∨ count + g.length ≤ 3) ∧
        HL 0 (count + g.length) d rest d' rd')
  | [], last, count, d, d', rest, rd', _, hl => by
    simp only [List.nil_append, true_or, implies_true, true_and, List.length_nil, Nat.add_zero]
    exact HL.last hl (by decide)
  | b :: g, last, count, d, d', rest, rd', hg, hl => by
    have hb := hg b (by simp)
    have step : ∀ f, headerLoop (f + 1) last count ⟨d, b :: (g ++ rest)⟩ =
        if d.options.getStrictMode = true ∧ count + 1 > 3 then (.err .formatStatic, ⟨d, g ++ rest⟩)
        else headerLoop f b (count + 1) ⟨d, g ++ rest⟩ := by
      intro f
      have h1 : readByte ⟨d, b :: (g ++ rest)⟩ = (.ok b, ⟨d, g ++ rest⟩) := rfl
      have h2 : headerStep last count b ⟨d, g ++ rest⟩ = (.ok (some count), ⟨d, g ++ rest⟩) := by
        unfold headerStep
        rw [if_neg hl]; rfl
      have h3 : getDec ⟨d, g ++ rest⟩ = (.ok d, ⟨d, g ++ rest⟩) := rfl
      conv_lhs => unfold headerLoop
      rw [M.bind_ok h1, M.bind_ok h2]
      show (getDec >>= _) _ = _
      rw [M.bind_ok h3]
      by_cases hc : d.options.getStrictMode = true ∧ count + 1 > 3
      · rw [if_pos hc, if_pos hc]; rfl
      · rw [if_neg hc, if_neg hc]
    have ih := HL.skip (g := g) (last := b) (count := count + 1) (d := d) (d' := d') (rest := rest)
      (rd' := rd') (fun x hx => hg x (by simp [hx])) hb
    have e : HL last count d (b :: g ++ rest) d' rd' ↔
        ¬ (d.options.getStrictMode = true ∧ count + 1 > 3) ∧ HL b (count + 1) d (g ++ rest) d' rd' := by
      constructor
      · rintro ⟨fuel, h⟩
        cases fuel with
        | zero => simp [headerLoop] at h
        | succ f =>
          rw [List.cons_append, step] at h
          split at h
          · simp at h
          · exact ⟨by assumption, f, h⟩
      · rintro ⟨hc, f, h⟩
        refine ⟨f + 1, ?_⟩
        rw [List.cons_append, step, if_neg hc]
        exact h
    rw [e, ih, List.length_cons, show count + 1 + g.length = count + (g.length + 1) by omega]
    simp only [reduceCtorEq, false_or]
    constructor
    · rintro ⟨h1, h2, h3⟩
      refine ⟨fun hs => ?_, h3⟩
      rcases h2 hs with rfl | h
      · simp only [List.length_nil]
        have : ¬ count + 1 > 3 := fun hgt => h1 ⟨hs, hgt⟩
        omega
      · exact h
    · rintro ⟨h1, h3⟩
      exact ⟨fun ⟨hs, hgt⟩ => absurd (h1 hs) (by omega), fun hs => .inr (h1 hs), h3⟩

/-- After an `FF` the number of bytes before it no longer matters. -/
theorem HL.marker {count : Nat} {d d' : Decoder} {rest rd' : List UInt8} :
    HL 0 count d (0xFF :: rest) d' rd' ↔
      (d.options.getStrictMode = true → count ≤ 2) ∧ HL 0xFF 0 d rest d' rd' := by
  have step : ∀ f, headerLoop (f + 1) 0 count ⟨d, 0xFF :: rest⟩ =
      if d.options.getStrictMode = true ∧ count + 1 > 3 then (.err .formatStatic, ⟨d, rest⟩)
      else headerLoop f 0xFF (count + 1) ⟨d, rest⟩ := by
    intro f
    have h1 : readByte ⟨d, 0xFF :: rest⟩ = (.ok 0xFF, ⟨d, rest⟩) := rfl
    have h2 : headerStep 0 count 0xFF ⟨d, rest⟩ = (.ok (some count), ⟨d, rest⟩) := rfl
    have h3 : getDec ⟨d, rest⟩ = (.ok d, ⟨d, rest⟩) := rfl
    conv_lhs => unfold headerLoop
    rw [M.bind_ok h1, M.bind_ok h2]
    show (getDec >>= _) _ = _
    rw [M.bind_ok h3]
    by_cases hc : d.options.getStrictMode = true ∧ count + 1 > 3
    · rw [if_pos hc, if_pos hc]; rfl
    · rw [if_neg hc, if_neg hc]
  have any : ∀ f, headerLoop f 0xFF (count + 1) ⟨d, rest⟩ = headerLoop f 0xFF 0 ⟨d, rest⟩ := by
    intro f
    cases f with
    | zero => rfl
    | succ f =>
      have : ∀ m, headerStep 0xFF (count + 1) m = headerStep 0xFF 0 m := by
        intro m
        unfold headerStep
        rw [if_pos rfl, if_pos rfl]
      unfold headerLoop
      simp only [this]
  constructor
  · rintro ⟨fuel, h⟩
    cases fuel with
    | zero => simp [headerLoop] at h
    | succ f =>
      rw [step] at h
      split at h
      · simp at h
      · rename_i hc
        rw [any] at h
        exact ⟨fun hs => by by_contra hgt; exact hc ⟨hs, by omega⟩, f, h⟩
  · rintro ⟨hc, f, h⟩
    refine ⟨f + 1, ?_⟩
    rw [step, any, if_neg (fun ⟨a, b⟩ => absurd (hc a) (by omega))]
    exact h

theorem segStep_effect {m : UInt8} {s s' : H} (h : segStep m s = (.ok (), s')) :
    match Marker.fromU8 m with
    | some mk => Effect mk s s'
    | none => TablesOnly s.dec s'.dec := by
  unfold segStep at h
  split
  · rename_i mk hm
    rw [hm] at h
    exact (M.wp_ok (wp_parseMarkerInner_raw (pn := True) (dv := False) mk (fun h => absurd trivial h)
      (fun h => absurd trivial h)) h).2.2
  · rename_i hm
    rw [hm] at h
    have := (M.wp_ok (wp_skipSegment (pn := True) (dv := False)) h).1
    rw [this]
    exact TablesOnly.refl _

theorem segOk_strict {m : UInt8} {p : List UInt8} {d d' : Decoder} (h : SegOk m p d d') :
    d'.options.getStrictMode = d.options.getStrictMode := by
  have e := segStep_effect h
  have sof : ∀ {k : SofMarker} {d1 : Decoder} {rd rd' : List UInt8} {x y h1 h2 w1 w2 n : UInt8}
      {cs cs' : List Component}, SofOk k d1 rd d' rd' x y h1 h2 w1 w2 n cs cs' →
      d'.options.getStrictMode = d1.options.getStrictMode := by
    intro k d1 rd rd' x y h1 h2 w1 w2 n cs cs' G
    rw [G.dec]
    show (if n = 1 then d1.options.setOutColorspace .grayscale else d1.options).getStrictMode = _
    split <;> rfl
  have tab : TablesOnly d d' → d'.options.getStrictMode = d.options.getStrictMode := by
    intro ht
    rw [ht.dec]
  split at e
  · unfold Effect at e
    split at e
    · obtain ⟨x, y, h1, h2, w1, w2, n, cs, cs', G⟩ := e
      exact sof G
    · obtain ⟨x, y, h1, h2, w1, w2, n, cs, cs', G⟩ := e
      have := sof (d1 := { d with isProgressive := true }) G
      exact this
    · obtain ⟨x, y, n, ss, se, a, ps, G⟩ := e
      have hg := G.dec
      dsimp only at hg
      rw [hg]
    · exact tab e
  · exact tab e

theorem SegsOk.strict : ∀ {segs : List Segment} {d d' : Decoder}, SegsOk segs d d' →
    d'.options.getStrictMode = d.options.getStrictMode
  | [], _, _, h => by cases h; rfl
  | _ :: _, _, _, ⟨_, h1, h2⟩ => h2.strict.trans (segOk_strict h1)

/-- **C07.** Exactly how strict strict mode is: bytes other than `FF` between a header segment and
the `FF` of the next marker change nothing if there is at most one of them (two after the start of
image), and any number changes nothing without strict mode; in strict mode more of them are
refused. -/
theorem c07_exact {segs : List Segment} (hs : ∀ s ∈ segs, s.Header) {g : List UInt8}
    (hg : ∀ b ∈ g, b ≠ 0xFF) (d d' : Decoder) (rest : List UInt8) :
    d.readHeaders (0xFF :: 0xD8 :: (segs.flatMap Segment.bytes ++ (g ++ 0xFF :: rest))) = (.ok (), d') ↔
      (d.options.getStrictMode = true → g.length ≤ if segs = [] then 2 else 1) ∧
        d.readHeaders (0xFF :: 0xD8 :: (segs.flatMap Segment.bytes ++ (0xFF :: rest))) = (.ok (), d') := by
  have hd : ∀ d1, SegsOk segs d d1 → d1.options.getStrictMode = d.options.getStrictMode :=
    fun _ h => h.strict
  have e : ∀ buf, d.readHeaders buf = (.ok (), d') ↔ ∃ rd', decodeHeaders ⟨d, buf⟩ = (.ok (), ⟨d', rd'⟩) := by
    intro buf
    unfold Decoder.readHeaders
    rcases decodeHeaders ⟨d, buf⟩ with ⟨r, ⟨d2, rd2⟩⟩
    simp
  rw [e, e]
  simp only [decodeHeaders_segments hs, HL.skip hg (by decide : (0 : UInt8) ≠ 0xFF), HL.marker]
  constructor
  · rintro ⟨rd', d1, h1, h2, h3, h4⟩
    rw [hd d1 h1] at h2 h3
    refine ⟨fun hst => ?_, rd', d1, h1, fun _ => by split <;> omega, h4⟩
    have := h3 hst
    split at this <;> rename_i h <;> simp [h] <;> omega
  · rintro ⟨hc, rd', d1, h1, -, h4⟩
    refine ⟨rd', d1, h1, ?_, ?_, h4⟩ <;> rw [hd d1 h1] <;> intro hst <;> have := hc hst
    · right
      split at this <;> rename_i h <;> simp [h] <;> omega
    · split at this <;> rename_i h <;> simp [h] <;> omega

/-- One byte between two segments is tolerated in strict mode, two are not. -/
example : ((Decoder.newWithOptions ⟨false, false⟩ (Options.new.setStrictMode true)).readHeaders
      (tinyFile.take 2 ++ [0xFF, 0xFE, 0, 2, 0] ++ tinyFile.drop 2)).1 = .ok () ∧
    ((Decoder.newWithOptions ⟨false, false⟩ (Options.new.setStrictMode true)).readHeaders
      (tinyFile.take 2 ++ [0xFF, 0xFE, 0, 2, 0, 0] ++ tinyFile.drop 2)).1 = .err .formatStatic := by
  decide +kernel

/-! ### C30: the frames that are decoded -/

namespace Spec

/-- A header segment that is neither a frame nor a scan header. -/
structure Segment.Plain (s : Segment) : Prop where
  header : s.Header
  frame : ∀ n, Marker.fromU8 s.marker ≠ some (.sof n)

end Spec

theorem tablesOnly_plain {s : Segment} (hs : Segment.Plain s) {d d' : Decoder}
    (h : SegOk s.marker s.payload d d') : TablesOnly d d' := by
  have e := segStep_effect h
  split at e
  · rename_i mk hm
    unfold Effect at e
    split at e
    · exact absurd hm (hs.frame _)
    · exact absurd hm (hs.frame _)
    · exact absurd (fromU8_sos hm) hs.header.sos
    · exact e
  · exact e

theorem TablesOnly.trans {a b c : Decoder} (h1 : TablesOnly a b) (h2 : TablesOnly b c) :
    TablesOnly a c := by
  refine ⟨?_, h2.qt.trans h1.qt, fun h => h2.tables (h1.tables h)⟩
  have e1 := h1.dec
  have e2 := h2.dec
  rw [e1] at e2
  exact e2

theorem tablesOnly_segs : ∀ {segs : List Segment}, (∀ s ∈ segs, Segment.Plain s) →
    ∀ {d d' : Decoder}, SegsOk segs d d' → TablesOnly d d'
  | [], _, _, _, h => by cases h; exact TablesOnly.refl _
  | s :: ss, hs, _, _, ⟨_, h1, h2⟩ =>
    (tablesOnly_plain (hs s (by simp)) h1).trans
      (tablesOnly_segs (fun s h => hs s (by simp [h])) h2)

theorem HL.sos_inv {count : Nat} {d d' : Decoder} {rd rd' : List UInt8}
    (h : HL 0 count d (0xFF :: 0xDA :: rd) d' rd') : parseSos ⟨d, rd⟩ = (.ok (), ⟨d', rd'⟩) := by
  obtain ⟨fuel, h⟩ := (HL.marker.1 h).2
  cases fuel with
  | zero => simp [headerLoop] at h
  | succ f =>
    unfold headerLoop at h
    have h1 : readByte ⟨d, 0xDA :: rd⟩ = (.ok 0xDA, ⟨d, rd⟩) := rfl
    rw [M.bind_ok h1] at h
    obtain ⟨r, s1, e1, e2⟩ := M.bind_ok_inv h
    have e1' : (parseSos >>= fun _ => Pure.pure Option.none : M H (Option Nat)) ⟨d, rd⟩ = (.ok r, s1) := e1
    obtain ⟨u, s2, e3, e4⟩ := M.bind_ok_inv e1'
    cases e4
    cases e2
    exact e3

theorem checkDims_inv {cw : Nat} : ∀ {cs : List Component}, checkDims cw cs = .ok () →
    ∀ c ∈ cs, c.componentId ≠ .y → c.horizontalSample = 1 ∧ c.verticalSample = 1
  | [], _ => by simp
  | c :: cs, h => by
    unfold checkDims at h
    intro x hx hy
    rcases List.mem_cons.1 hx with rfl | hx
    · rw [if_neg hy] at h
      split at h
      · cases h
      · split at h
        · cases h
        · rename_i hn
          simp only [not_or, Decidable.not_not] at hn
          exact hn
    · refine checkDims_inv (cw := cw) (cs := cs) ?_ x hx hy
      split at h
      · exact h
      · split at h
        · cases h
        · split at h
          · cases h
          · exact h

theorem checkComponentDimensions_inv {d : Decoder} (h : d.checkComponentDimensions = .ok ()) :
    ∀ c ∈ d.components, c.componentId ≠ .y → c.horizontalSample = 1 ∧ c.verticalSample = 1 := by
  unfold Decoder.checkComponentDimensions at h
  split at h
  · cases h
  · split at h
    · cases h
    · exact checkDims_inv h

theorem checkComponentDimensions_luma {d : Decoder} (h : d.checkComponentDimensions = .ok ()) :
    ∃ c ∈ d.components, c.componentId = .y := by
  unfold Decoder.checkComponentDimensions at h
  split at h
  · cases h
  · rename_i c hc
    exact ⟨c, List.mem_of_find?_eq_some hc, by simpa using List.find?_some hc⟩

theorem frame_same {d d' : Decoder} {w h fh fv : Nat} (F : Frame d w h fh fv)
    (e : d'.info = d.info ∧ d'.hMax = d.hMax ∧ d'.vMax = d.vMax ∧ d'.interleaved = d.interleaved ∧
      d'.subSampleRatio = d.subSampleRatio ∧ d'.mcuX = d.mcuX ∧ d'.mcuY = d.mcuY)
    (hc : List.Forall₂ SameButTables d.components d'.components) : Frame d' w h fh fv := by
  obtain ⟨e1, e2, e3, e4, e5, e6, e7⟩ := e
  obtain ⟨c, cs, f1, f2, f3, f4, f5, f6⟩ := F.comps
  refine ⟨e1 ▸ F.width, e1 ▸ F.height, F.wpos, F.hpos, F.fpos, e2 ▸ F.hMax, e3 ▸ F.vMax,
    e4 ▸ F.inter, e5 ▸ F.ratio, e6 ▸ F.mcuX, e7 ▸ F.mcuY, ?_⟩
  rw [f1] at hc
  generalize hl : d'.components = l at hc
  cases hc with
  | @cons _ c' _ cs' h1 h2 =>
    have hh : ∀ {a b : Component}, SameButTables a b → b.componentId = a.componentId ∧
        b.horizontalSample = a.horizontalSample ∧ b.verticalSample = a.verticalSample ∧
        b.widthStride = a.widthStride := by
      intro a b hab
      unfold SameButTables at hab
      rw [hab]
      exact ⟨rfl, rfl, rfl, rfl⟩
    obtain ⟨a1, a2, a3, a4⟩ := hh h1
    refine ⟨c', cs', rfl, fun hn => a1.trans (f2 hn), a2.trans f3, a3.trans f4, by rw [a4, e6]; exact f5, ?_⟩
    intro x hx
    obtain ⟨y, hy, hr⟩ := forall₂_mem h2.flip x hx
    obtain ⟨b1, b2, b3, b4⟩ := hh hr
    obtain ⟨g1, g2, g3, g4⟩ := f6 y hy
    exact ⟨fun hn => by rw [b1]; exact g1 hn, b2.trans g2, b3.trans g3, by rw [b4, e6]; exact g4⟩

/-- The decoder after the headers of a file with one frame header. -/
theorem file_decoder (cpu : Cpu) (o : Options) {A B : List Segment} (hA : ∀ s ∈ A, Segment.Plain s)
    (hB : ∀ s ∈ B, Segment.Plain s) {m : UInt8} (hm : m = 0xC0 ∨ m = 0xC2) {w h : Nat} {c : CompSpec}
    {cs : List CompSpec} (fits : FrameFits w h (c :: cs)) (hid : c.id = 1) (hids : ∀ x ∈ cs, x.id ≠ 1)
    {rest : List UInt8} {d : Decoder}
    (hr : (Decoder.newWithOptions cpu o).readHeaders (0xFF :: 0xD8 ::
      ((A ++ ⟨m, framePayload w h (c :: cs)⟩ :: B).flatMap Segment.bytes ++ 0xFF :: 0xDA :: rest)) =
      (.ok (), d))
    (hcheck : d.checkComponentDimensions = .ok ()) :
    Frame d w h c.h c.v ∧ (∀ x ∈ cs, x.h = 1 ∧ x.v = 1) ∧ d.components.length = cs.length + 1 ∧
      d.isProgressive = decide (m = 0xC2) ∧
      d.inputColorspace = (if cs = [] then .grayscale else .ycbcr) ∧
      d.options = (if cs = [] then o.setOutColorspace .grayscale else o) := by
  obtain ⟨hw, hh, hn, hc⟩ := fits
  have hnt : (UInt8.ofNat (c :: cs).length).toNat = (c :: cs).length := by
    rw [UInt8.toNat_ofNat']; omega
  have hplen : (framePayload w h (c :: cs)).length = 6 + 3 * (c :: cs).length := by
    have : ∀ l : List CompSpec, (l.flatMap CompSpec.bytes).length = 3 * l.length := by
      intro l
      induction l with
      | nil => rfl
      | cons c l ih =>
        rw [List.flatMap_cons, List.length_append, ih, List.length_cons]
        show 3 + _ = _
        omega
    unfold framePayload
    simp only [List.length_cons, List.length_append, twoBytes, List.length_nil, this]
    omega
  have hsof : ∀ d1 d2, SegOk m (framePayload w h (c :: cs)) d1 d2 →
      ∃ k d1', d1'.hMax = d1.hMax ∧ d1'.vMax = d1.vMax ∧ d1'.interleaved = d1.interleaved ∧
        d1'.subSampleRatio = d1.subSampleRatio ∧ d1'.inputColorspace = d1.inputColorspace ∧
        d1'.options = d1.options ∧ d1'.isProgressive = (d1.isProgressive || decide (m = 0xC2)) ∧ ∃ x y h1 h2 w1 w2 n fs cs',
        SofOk k d1' (lenBytes (framePayload w h (c :: cs)).length ++ framePayload w h (c :: cs)) d2 []
          x y h1 h2 w1 w2 n fs cs' := by
    intro d1 d2 h
    have e := segStep_effect h
    rcases hm with rfl | rfl
    · exact ⟨_, d1, rfl, rfl, rfl, rfl, rfl, rfl, (Bool.or_false _).symm, e⟩
    · exact ⟨_, { d1 with isProgressive := true }, rfl, rfl, rfl, rfl, rfl, rfl,
        (Bool.or_true _).symm, e⟩
  have hhead : ∀ s ∈ A ++ ⟨m, framePayload w h (c :: cs)⟩ :: B, s.Header := by
    intro s hs
    simp only [List.mem_append, List.mem_cons] at hs
    rcases hs with hs | rfl | hs
    · exact (hA s hs).header
    · refine ⟨by dsimp only; rw [hplen]; omega, ?_, ?_⟩ <;> rcases hm with rfl | rfl <;> dsimp only <;> decide
    · exact (hB s hs).header
  unfold Decoder.readHeaders at hr
  rcases hdh : decodeHeaders ⟨Decoder.newWithOptions cpu o, 0xFF :: 0xD8 ::
      ((A ++ ⟨m, framePayload w h (c :: cs)⟩ :: B).flatMap Segment.bytes ++ 0xFF :: 0xDA :: rest)⟩
    with ⟨r, ⟨d', rd'⟩⟩
  rw [hdh] at hr
  simp only [Prod.mk.injEq] at hr
  obtain ⟨rfl, rfl⟩ := hr
  rw [decodeHeaders_segments hhead] at hdh
  obtain ⟨d3, hsegs, hl⟩ := hdh
  obtain ⟨d1, s1, d2, s2, s3⟩ := SegsOk.append.1 hsegs
  have t1 := tablesOnly_segs hA s1
  have t3 := tablesOnly_segs hB s3
  obtain ⟨k, d1', q1, q2, q3, q4, q5, q6, q7, x, y, h1, h2, w1, w2, n, fs, cs', G⟩ := hsof _ _ s2
  have hsos := HL.sos_inv hl
  obtain ⟨x', y', n', ss, se, a, ps, S⟩ := M.wp_ok (wp_parseSos (pn := True) (dv := False)
    (fun h => absurd trivial h)) hsos
  -- the components
  have hb := G.bytes
  simp only [framePayload, twoBytes, lenBytes, List.cons_append, List.nil_append,
    List.cons.injEq] at hb
  obtain ⟨-, -, -, rfl, rfl, rfl, rfl, rfl, hb⟩ := hb
  have hF := flatMap_bytes_inj (c :: cs) cs' [] [] (by rw [G.count, hnt]) (by simpa using hb)
  cases hF with
  | @cons _ b _ bs hb0 hbs =>
  have ok := G.componentsOk
  obtain ⟨i1, i2, i3, -⟩ := compBytes_inj (hc c (by simp)) (ok b (by simp)) hb0
  have hinv := checkComponentDimensions_inv hcheck
  have hd2 : d2.components = b :: bs := by rw [G.dec]; rfl
  have hd3 : d3.components = b :: bs := by rw [t3.dec]; exact hd2
  have hsame : List.Forall₂ SameButTables d3.components d'.components := S.comps.comps
  have hrest : ∀ y ∈ bs, y.componentId ≠ .y ∧ y.horizontalSample = 1 ∧ y.verticalSample = 1 := by
    intro y hy
    obtain ⟨z, hz, he⟩ := forall₂_mem hbs.flip y hy
    have e := (compBytes_inj (hc z (by simp [hz])) (ok y (by simp [hy])) he).1
    have hyid : y.componentId ≠ .y := by
      intro hyy
      rcases (ok y (by simp [hy])).id with h | h | h
      · exact hids z hz (e.trans h.1)
      · rw [h.2] at hyy; cases hyy
      · rw [h.2] at hyy; cases hyy
    obtain ⟨y', hy', hs⟩ := forall₂_mem hsame y (by rw [hd3]; simp [hy])
    unfold SameButTables at hs
    have := hinv y' hy' (by rw [hs]; exact hyid)
    rw [hs] at this
    exact ⟨hyid, this⟩
  have hby : b.componentId = .y := by
    rcases (ok b (by simp)).id with h | h | h
    · exact h.2
    · rw [← i1, hid] at h; exact absurd h.1 (by decide)
    · rw [← i1, hid] at h; exact absurd h.1 (by decide)
  have ed := t1.dec
  have F := frame_of_sof G (by rw [q1, ed]; rfl) (by rw [q2, ed]; rfl) (by rw [q3, ed]; rfl)
    (by rw [q4, ed]; rfl) (fun _ => hby)
    (fun y hy => ⟨fun _ => (hrest y hy).1, (hrest y hy).2⟩)
  rw [be16_twoBytes hw, be16_twoBytes hh, ← i2, ← i3] at F
  refine ⟨?_, ?_, ?_⟩
  · have F3 : Frame d3 w h c.h c.v := by
      refine frame_same F ?_ ?_
      · rw [t3.dec]
        exact ⟨rfl, rfl, rfl, rfl, rfl, rfl, rfl⟩
      · rw [hd2, hd3]
        exact forall₂_same_refl _
    refine frame_same F3 ?_ hsame
    have := S.dec
    dsimp only at this
    rw [this]
    exact ⟨rfl, rfl, rfl, rfl, rfl, rfl, rfl⟩
  · intro z hz
    obtain ⟨y, hy, he⟩ := forall₂_mem hbs z hz
    obtain ⟨-, e2, e3, -⟩ := compBytes_inj (hc z (by simp [hz])) (ok y (by simp [hy])) he
    rw [e2, e3]
    exact (hrest y hy).2
  · have eS := S.dec
    dsimp only at eS
    have e3 := t3.dec
    have en : UInt8.ofNat (c :: cs).length = 1 ↔ cs = [] := by
      rw [← UInt8.toNat_inj, hnt, List.length_cons]
      show cs.length + 1 = 1 ↔ _
      rw [Nat.add_eq_right, List.length_eq_zero_iff]
    have g1 : d3.isProgressive = d2.isProgressive ∧ d3.inputColorspace = d2.inputColorspace ∧
        d3.options = d2.options := by rw [e3]; exact ⟨rfl, rfl, rfl⟩
    have g2 : d'.isProgressive = d3.isProgressive ∧ d'.inputColorspace = d3.inputColorspace ∧
        d'.options = d3.options := by rw [eS]; exact ⟨rfl, rfl, rfl⟩
    have g3 : d2.isProgressive = d1'.isProgressive ∧
        d2.inputColorspace = (if cs = [] then .grayscale else d1'.inputColorspace) ∧
        d2.options = (if cs = [] then d1'.options.setOutColorspace .grayscale else d1'.options) := by
      rw [G.dec]
      refine ⟨rfl, ?_, ?_⟩
      · show (if UInt8.ofNat (c :: cs).length = 1 then _ else _) = _
        simp only [en]
      · show (if UInt8.ofNat (c :: cs).length = 1 then _ else _) = _
        simp only [en]
    have g4 : d1.isProgressive = false ∧ d1.inputColorspace = .ycbcr ∧ d1.options = o := by
      rw [ed]; exact ⟨rfl, rfl, rfl⟩
    refine ⟨?_, ?_, ?_, ?_⟩
    · have := hsame.length_eq
      have := hbs.length_eq
      rw [hd3] at *
      simp only [List.length_cons] at *
      omega
    · rw [g2.1, g1.1, g3.1, q7, g4.1, Bool.false_or]
    · rw [g2.2.1, g1.2.1, g3.2.1, q5, g4.2.1]
    · rw [g2.2.2, g1.2.2, g3.2.2, q6, g4.2.2]

/-- **C30** and every other claim about a `Frame` apply to files: when a new decoder accepts the
headers of a file with one frame header whose first component, and no other, is the luma component,
and the check before decoding succeeds, then the decoder has the frame that the header states, and
in it the other components have sampling factors 1. -/
theorem c30_file (cpu : Cpu) (o : Options) {A B : List Segment} (hA : ∀ s ∈ A, Segment.Plain s)
    (hB : ∀ s ∈ B, Segment.Plain s) {m : UInt8} (hm : m = 0xC0 ∨ m = 0xC2) {w h : Nat} {c : CompSpec}
    {cs : List CompSpec} (fits : FrameFits w h (c :: cs)) (hid : c.id = 1) (hids : ∀ x ∈ cs, x.id ≠ 1)
    {rest : List UInt8} {d : Decoder}
    (hr : (Decoder.newWithOptions cpu o).readHeaders (0xFF :: 0xD8 ::
      ((A ++ ⟨m, framePayload w h (c :: cs)⟩ :: B).flatMap Segment.bytes ++ 0xFF :: 0xDA :: rest)) =
      (.ok (), d))
    (hcheck : d.checkComponentDimensions = .ok ()) :
    Frame d w h c.h c.v ∧ ∀ x ∈ cs, x.h = 1 ∧ x.v = 1 :=
  let h := file_decoder cpu o hA hB hm fits hid hids hr hcheck
  ⟨h.1, h.2.1⟩

/-- The file of 20 x 40 pixels with 2 x 2 subsampling is of this form. -/
example : FrameFits 20 40 [⟨1, 2, 2, 0⟩, ⟨2, 1, 1, 0⟩, ⟨3, 1, 1, 0⟩] ∧
    ((Decoder.newWithOptions ⟨false, false⟩ Options.new).readHeaders (0xFF :: 0xD8 ::
      ((([⟨0xDB, 0 :: List.replicate 64 1⟩] : List Segment) ++
        (⟨0xC0, framePayload 20 40 [⟨1, 2, 2, 0⟩, ⟨2, 1, 1, 0⟩, ⟨3, 1, 1, 0⟩]⟩ : Segment) ::
        ([⟨0xC4, 0x00 :: 1 :: (List.replicate 15 0 ++ [0])⟩,
          ⟨0xC4, 0x10 :: 1 :: (List.replicate 15 0 ++ [0])⟩] : List Segment)).flatMap Segment.bytes ++
        0xFF :: 0xDA :: [0x00, 0x0C, 3, 1, 0x00, 2, 0x00, 3, 0x00, 0, 63, 0]))).1 = .ok () ∧
    ((Decoder.newWithOptions ⟨false, false⟩ Options.new).readHeaders
      (sampledFile 20 40 0x22 [])).2.checkComponentDimensions = .ok () := by
  refine ⟨⟨by decide, by decide, by decide, by simp⟩, ?_, ?_⟩ <;> decide +kernel

end Zune
