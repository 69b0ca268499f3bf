import Verif.Lemmas.NoPanicBase
import Verif.Lemmas.ProgColourOut
/-! Progressive images with one or three components do not panic. -/

namespace Zune
open M (wp wp_bind wp_mono wp_pure wp_throw wp_idx wp_idx_of wp_okOr wp_ofOut wp_failIf wp_ite_of
  wp_diverge wp_panic wp_unwrap wp_get wp_modify)
open Spec

/-- The length of the buffer of a component. -/
def progLen (d : Decoder) (c : Component) : Nat :=
  64 * (d.mcuX * c.horizontalSample * (d.mcuY * c.verticalSample))

/-- The coefficient buffers of the components of `d0`. -/
def ProgBufs (d0 : Decoder) (bufs : List (List I16)) : Prop :=
  ∀ (pos : Nat) (c : Component), d0.components[pos]? = some c →
    ∃ buf : List I16, bufs[pos]? = some buf ∧ buf.length = progLen d0 c

/-- All data units lie inside the buffers. -/
structure ProgFit (d0 : Decoder) : Prop where
  single : ∀ (pos : Nat) (c : Component), d0.components[pos]? = some c → ∀ i j cols rows,
    (cols, rows) = (if c.componentId = .y ∨ d0.interleaved = false then
        (blocks8 d0.info.width, blocks8 d0.info.height) else (d0.mcuX, d0.mcuY)) →
    i < rows → j < cols → progPos c i j + 64 ≤ progLen d0 c
  inter : ∀ (pos : Nat) (c : Component), d0.components[pos]? = some c → ∀ i j vs hs,
    i < d0.mcuY → j < d0.mcuX → vs < c.verticalSample → hs < c.horizontalSample →
    interPos c i j (vs, hs) < progLen d0 c

theorem ProgBufs.set {d0 : Decoder} {bufs : List (List I16)} (h : ProgBufs d0 bufs) {k : Nat}
    {c : Component} (hc : d0.components[k]? = some c) {buf : List I16}
    (hl : buf.length = progLen d0 c) : ProgBufs d0 (bufs.set k buf) := by
  intro pos x hx
  by_cases e : k = pos
  · subst e
    rw [hc] at hx
    cases hx
    obtain ⟨b, b1, -⟩ := h k c hc
    exact ⟨buf, List.getElem?_set_self (List.getElem?_eq_some_iff.1 b1).1, hl⟩
  · rw [List.getElem?_set_ne e]
    exact h pos x hx

section
variable {d0 : Decoder} {rd0 : List UInt8}

theorem wpN_liftB {α : Type} {m : M B α} {t : T} {Q : α → T → Prop} (hj : JobsOk t)
    (h : wp False False m (fun a s => Q a { t with io := s }) (fun _ _ => True) t.io) :
    wpN (liftB m) Q t := by
  unfold wpN wp liftB at *
  rcases hm : m t.io with ⟨_ | _ | _ | _, s⟩ <;> rw [hm] at h
  · exact h
  · exact hj
  · exact h
  · exact h

theorem wpN_progTable {l : List (Option HuffmanTable)} {i : Nat} {t : T} (hj : JobsOk t)
    {Q : HuffmanTable → T → Prop} (h : ∀ x, l[i]? = some (some x) → Q x t) :
    wpN (progTable l i) Q t := by
  unfold wpN wp progTable
  rcases hl : l[i]? with _ | _ | x
  · exact hj
  · exact hj
  · exact h x hl

theorem wpN_progDc {k : Nat} (hk : k < d0.components.length) (c : I16) {table : HuffmanTable}
    (ht : TableOk table) {t : T} (h : NI d0 rd0 t) :
    wpN (progDc k c table) (fun _ t' => NI d0 rd0 t') t := by
  unfold progDc
  rw [wpN, wp_bind, wp_get, wp_bind]
  refine wp_idx_of (by rw [h.dec.length]; exact hk) fun comp _ => ?_
  refine wp_ite_of (fun _ => ?_) fun _ => ?_
  · rw [wp_bind]
    refine wpN_liftB h.jobs ?_
    refine wp_decodeProgDcFirst (fun _ => ht) ?_ (fun _ _ _ => trivial)
    rintro ⟨v, p⟩ s hs
    have := h.io hs.toSameP
    exact ⟨this.dec.preds (forall₂_modify_pred _ _ _), this.rd, this.marker, this.se, this.jobs⟩
  · refine wpN_liftB h.jobs ?_
    exact wp_decodeProgDcRefine (fun v s hs _ => h.io hs.toSameP) (fun _ _ _ => trivial)

theorem wpN_progBlock {k mw i j : Nat} (hk : k < d0.components.length) (hj : j < mw)
    {block : List I16} (hb : block.length = 64) {t : T} (h : NI d0 rd0 t) :
    wpN (progBlock k mw i j block) (fun r t' => NI d0 rd0 t' ∧ r.2.1 < mw ∧
      i * (mw + 1) + j ≤ r.1 * (mw + 1) + r.2.1 ∧ r.2.2.length = 64) t := by
  unfold progBlock
  rw [wpN, wp_bind, wp_get, wp_bind]
  refine wp_idx_of (by rw [h.dec.length]; exact hk) fun comp _ => ?_
  refine wp_ite_of (fun _ => ?_) fun _ => ?_
  · rw [wp_bind]
    refine wpN_progTable h.jobs fun table htab => ?_
    rw [wp_bind]
    refine wp_idx_of (by omega) fun c _ => ?_
    rw [wp_bind]
    refine wpN_mono (wpN_progDc hk c (h.dec.dcOk htab) h) fun v t' h' => ?_
    exact ⟨h', hj, Nat.le_refl _, by dsimp only; rw [List.length_set]; exact hb⟩
  · rw [wp_bind]
    refine wpN_progTable h.jobs fun table htab => ?_
    obtain ⟨k1, k2⟩ := h.dec.acOk htab
    refine wp_ite_of (fun _ => ?_) fun _ => ?_
    · dsimp only
      refine wp_ite_of (fun he => ?_) fun _ => ?_
      · rw [wp_bind, wp_modify, wp_pure]
        have := raster_step (i := i) hj he
        exact ⟨⟨h.dec, h.rd, h.marker, h.se, h.jobs⟩, this.1, this.2, hb⟩
      · rw [wp_bind]
        refine wpN_liftB h.jobs ?_
        refine wp_decodeMcuAcFirst (fun _ => k1) (fun _ => k2) hb
          (by have := h.se; omega) ?_ (fun _ _ _ => trivial)
        rintro b s hs hbl
        exact ⟨h.io hs, hj, Nat.le_refl _, hbl⟩
    · rw [wp_bind]
      refine wpN_liftB h.jobs ?_
      refine wp_decodeMcuAcRefine_total (fun _ => k1)
        (by have := h.se; omega) hb ?_ (fun _ _ _ => trivial)
      rintro b s hs hbl
      exact ⟨h.io hs, hj, Nat.le_refl _, hbl⟩

theorem progPos_alike {c c' : Component} (h : Alike c c') (i j : Nat) :
    progPos c' i j = progPos c i j := by
  unfold Alike at h
  rw [h]
  rfl

theorem interPos_alike {c c' : Component} (h : Alike c c') (i j : Nat) (vh : Nat × Nat) :
    interPos c' i j vh = interPos c i j vh := by
  unfold Alike at h
  rw [h]
  rfl

theorem wpN_progLoop {k mw mh : Nat} {c : Component} (hc : d0.components[k]? = some c)
    (hpos : ∀ i j, i < mh → j < mw → progPos c i j + 64 ≤ progLen d0 c) :
    ∀ (fuel i j : Nat) (bufs : List (List I16)) (t : T), NI d0 rd0 t → ProgBufs d0 bufs → j ≤ mw →
    mh * (mw + 1) + 1 ≤ fuel + (i * (mw + 1) + j) →
    wpN (progLoop k mw mh fuel i j bufs) (fun bufs' t' => NI d0 rd0 t' ∧ ProgBufs d0 bufs') t
  | 0, i, j, bufs, t, h, hbufs, hj, hf => by
    unfold progLoop
    refine wp_ite_of (fun hi => ?_) fun _ => ⟨h, hbufs⟩
    exfalso
    have : (i + 1) * (mw + 1) ≤ mh * (mw + 1) := Nat.mul_le_mul_right _ hi
    rw [Nat.add_mul] at this
    omega
  | fuel + 1, i, j, bufs, t, h, hbufs, hj, hf => by
    have hk : k < d0.components.length := (List.getElem?_eq_some_iff.1 hc).1
    unfold progLoop
    refine wp_ite_of (fun hi => ?_) fun _ => ⟨h, hbufs⟩
    refine wp_ite_of (fun hjw => ?_) fun hjw => ?_
    · rw [wp_bind, wp_get, wp_bind]
      refine wp_idx_of (by rw [h.dec.length]; exact hk) fun comp hcomp => ?_
      obtain ⟨c', hc', ha⟩ := alike_get' h.dec.comps hcomp
      rw [hc] at hc'
      cases hc'
      obtain ⟨buf, hbuf, hlen⟩ := hbufs k c hc
      have hin := hpos i j hi hjw
      rw [← progPos_alike ha, ← hlen] at hin
      dsimp only
      rw [wp_bind, wp_unwrap]
      refine ⟨fun b hb' => ?_, fun hn => by rw [hbuf] at hn; cases hn⟩
      rw [hbuf] at hb'
      cases hb'
      rw [if_pos hin, wp_bind]
      refine wpN_mono (wpN_progBlock hk hjw
        (by rw [List.length_take, List.length_drop]; omega) h) ?_
      rintro ⟨i', j', b⟩ t1 ⟨h1, h2, h3, h4⟩
      dsimp only at h2 h3 h4 ⊢
      rw [wp_bind]
      refine wpN_mono (wpN_countDown h1) ?_
      rintro _ t2 h5
      exact wpN_progLoop hc hpos fuel i' (j' + 1) _ t2 h5
        (hbufs.set hc (by rw [length_writeAt (by rw [h4]; exact hin)]; exact hlen))
        (by omega) (by omega)
    · refine wpN_progLoop hc hpos fuel (i + 1) 0 bufs t h hbufs (by omega) ?_
      rw [Nat.add_mul]
      omega

theorem wpN_interComponent (P : ProgFit d0) {i j k : Nat} (hi : i < d0.mcuY) (hj : j < d0.mcuX)
    (hk : k < 4) {bufs : List (List I16)} (hb : ProgBufs d0 bufs) {t : T} (h : NI d0 rd0 t) :
    wpN (interComponent i j bufs k) (fun bufs' t' => NI d0 rd0 t' ∧ ProgBufs d0 bufs') t := by
  unfold interComponent
  rw [wpN, wp_bind, wp_get, wp_bind]
  refine wp_idx_of (by rw [h.dec.z]; exact hk) fun n _ => ?_
  refine wp_ite_of (fun _ => h.jobs) fun hn => ?_
  rw [wp_bind]
  refine wp_idx_of (by omega) fun comp hcomp => ?_
  obtain ⟨c, hc, ha⟩ := alike_get' h.dec.comps hcomp
  have hnl : n < d0.components.length := (List.getElem?_eq_some_iff.1 hc).1
  have e1 : comp.verticalSample = c.verticalSample := by unfold Alike at ha; rw [ha]
  have e2 : comp.horizontalSample = c.horizontalSample := by unfold Alike at ha; rw [ha]
  rw [wp_bind]
  refine wpN_progTable h.jobs fun table htab => ?_
  have htok := h.dec.dcOk htab
  rw [wp_bind]
  refine wpN_mono (M.wp_foldM (fun b t' => NI d0 rd0 t' ∧ ProgBufs d0 b) ⟨h, hb⟩ ?_) ?_
  · rintro b a t1 hmem ⟨h1, hb1⟩
    unfold samplePairs at hmem
    simp only [List.mem_flatMap, List.mem_map, List.mem_range] at hmem
    obtain ⟨x, hx, y, hy, rfl⟩ := hmem
    obtain ⟨buf, hbuf, hlen⟩ := hb1 n c hc
    have hin := P.inter n c hc i j x y hi hj (by omega) (by omega)
    rw [← interPos_alike ha] at hin
    unfold interSample
    dsimp only
    rw [wp_bind]
    refine wp_idx_of (List.getElem?_eq_some_iff.1 hbuf).1 fun buf' hbuf' => ?_
    rw [hbuf] at hbuf'
    cases hbuf'
    rw [wp_bind]
    refine wp_idx_of (by rw [hlen]; exact hin) fun v _ => ?_
    rw [wp_bind]
    refine wpN_mono (wpN_progDc hnl v htok h1) fun v' t' h' => ?_
    exact ⟨h', hb1.set hc (by rw [List.length_set]; exact hlen)⟩
  · rintro b t1 ⟨h1, hb1⟩
    rw [wp_bind]
    exact wpN_mono (wpN_countDown h1) fun _ _ h => ⟨h, hb1⟩

theorem numComponents_le (c : ColorSpace) : c.numComponents ≤ 4 := by cases c <;> decide

theorem wpN_parseEntropy (P : ProgFit d0) (hm : 0 < d0.hMax) {bufs : List (List I16)}
    (hb : ProgBufs d0 bufs) {t : T} (h : NI d0 rd0 t) :
    wpN (parseEntropy bufs) (fun bufs' t' => NI d0 rd0 t' ∧ ProgBufs d0 bufs') t := by
  have q1 : t.dec.interleaved = d0.interleaved := by rw [h.dec.rest]
  have q2 : t.dec.info = d0.info := by rw [h.dec.rest]
  have q3 : t.dec.mcuX = d0.mcuX := by rw [h.dec.rest]
  have q4 : t.dec.mcuY = d0.mcuY := by rw [h.dec.rest]
  have q5 : t.dec.hMax = d0.hMax := by rw [h.dec.rest]
  unfold parseEntropy
  rw [wpN, wp_bind, wp_get, wp_bind]
  refine wp_ofOut_returns (checkComponentDimensions_returns (by rw [q5]; exact hm))
    (fun _ _ => ?_) fun _ => h.jobs
  rw [wp_bind, wp_modify, wp_bind, wp_get]
  have h1 : NI d0 rd0 { t with
      io := { t.io with bs := t.io.bs.reset }
      dec := { t.dec with components := t.dec.components.map fun c => { c with dcPred := 0 } } } :=
    ⟨h.dec.preds (forall₂_map_pred _ _), h.rd, fun m hm => (by cases hm), h.se, h.jobs⟩
  obtain ⟨t1, ht1⟩ : ∃ t1 : T, ({ t with
      io := { t.io with bs := t.io.bs.reset }
      dec := { t.dec with components := t.dec.components.map fun c => { c with dcPred := 0 } } } : T) = t1 :=
    ⟨_, rfl⟩
  have p1 : t1.dec.interleaved = d0.interleaved := by rw [← ht1]; exact q1
  have p2 : t1.dec.info = d0.info := by rw [← ht1]; exact q2
  have p3 : t1.dec.mcuX = d0.mcuX := by rw [← ht1]; exact q3
  have p4 : t1.dec.mcuY = d0.mcuY := by rw [← ht1]; exact q4
  rw [ht1] at h1 ⊢
  dsimp only
  refine wp_ite_of (fun _ => h1.jobs) fun hns => ?_
  refine wp_ite_of (fun _ => ?_) fun _ => ?_
  · refine wp_ite_of (fun _ => h1.jobs) fun _ => ?_
    rw [wp_bind]
    refine wp_idx_of (by rw [h1.dec.z]; decide) fun k _ => ?_
    refine wp_ite_of (fun _ => h1.jobs) fun hkl => ?_
    rw [wp_bind]
    refine wp_idx_of (by omega) fun comp hcomp => ?_
    obtain ⟨c, hc, ha⟩ := alike_get' h1.dec.comps hcomp
    have eid : comp.componentId = c.componentId := by unfold Alike at ha; rw [ha]
    have hs := P.single k c hc
    rw [eid, p1, p2, p3, p4]
    generalize hq : (if c.componentId = ComponentID.y ∨ d0.interleaved = false then
        (blocks8 d0.info.width, blocks8 d0.info.height) else (d0.mcuX, d0.mcuY)) = q at hs
    refine wpN_progLoop hc (fun i j hi hj => hs i j q.1 q.2 rfl hi hj) _ 0 0 _ _ h1 hb
      (Nat.zero_le _) ?_
    rw [Nat.mul_comm q.2]
    omega
  · refine wp_ite_of (fun _ => h1.jobs) fun _ => ?_
    have hnum : t1.dec.numScans ≤ 4 := by
      have := numComponents_le t1.dec.inputColorspace
      omega
    rw [p3, p4]
    refine M.wp_foldM (fun b t' => NI d0 rd0 t' ∧ ProgBufs d0 b) ⟨h1, hb⟩ ?_
    rintro b ⟨i, j⟩ t2 hmem h2
    unfold samplePairs at hmem
    simp only [List.mem_flatMap, List.mem_map, List.mem_range, Prod.mk.injEq] at hmem
    obtain ⟨x, hx, y, hy, rfl, rfl⟩ := hmem
    refine M.wp_foldM (fun b t' => NI d0 rd0 t' ∧ ProgBufs d0 b) h2 ?_
    rintro b k t3 hk ⟨h3, hb3⟩
    rw [List.mem_range] at hk
    exact wpN_interComponent P hx hy (by omega) hb3 h3

theorem wpN_liftTable (h3 : Three d0) {m : Marker} {t : T} (h : NI d0 rd0 t)
    (n0 : m ≠ .sof 0) (n2 : m ≠ .sof 2) :
    wpN (liftH (parseMarkerInner m)) (fun _ t' => NI d0 rd0 t' ∧
      t'.io.rd.length + 2 ≤ t.io.rd.length ∧ t'.io.bs = t.io.bs) t := by
  have := wp_parseMarkerInner_raw (pn := False) (dv := False) (s := ⟨t.dec, t.io.rd⟩) m
    (fun _ => h.dec.qt) (fun _ => ⟨by
      show t.dec.components.length ≤ 3
      rw [h.dec.length]; exact h3.small, by
      show t.dec.info.components.toNat ≤ t.dec.components.length
      rw [h.dec.length, h.dec.info]; exact h3.count⟩)
  unfold wpN wp liftH at *
  rcases hr : parseMarkerInner m ⟨t.dec, t.io.rd⟩ with ⟨_ | _ | _ | _, s⟩ <;> rw [hr] at this
  · simp only at this ⊢
    obtain ⟨g1, g2, g3⟩ := this
    exact ⟨⟨Steady.effect (s := ⟨t.dec, t.io.rd⟩) h.dec n0 n2 g3, g1.trans h.rd, h.marker, h.se, h.jobs⟩, g2, trivial⟩
  · exact h.jobs
  · exact this
  · exact this

theorem wpN_getMarker {t : T} (h : NI d0 rd0 t) :
    wpN getMarker (fun _ t' => NI d0 rd0 t' ∧ t'.io.rd.length ≤ t.io.rd.length ∧
      t'.io.bs.marker = none) t := by
  unfold wpN wp getMarker
  rcases hm : t.io.bs.marker with _ | m
  · have := scanMarker_suffix false t.io.rd
    simp only
    rcases hs : scanMarker false t.io.rd with ⟨_ | m, rd⟩
    · exact h.jobs
    · rw [hs] at this
      exact ⟨⟨h.dec, this.trans h.rd, fun m hm' => h.marker m hm', h.se, h.jobs⟩, this.length_le, hm⟩
  · exact ⟨⟨h.dec, h.rd, fun m hm' => (by cases hm'), h.se, h.jobs⟩, Nat.le_refl _, rfl⟩

theorem wpN_takeMarker {t : T} (h : NI d0 rd0 t) :
    wpN takeMarker (fun _ t' => NI d0 rd0 t' ∧ t'.io.bs.marker = none) t := by
  unfold wpN wp takeMarker
  rcases t.io.bs.marker with _ | m
  · exact h.jobs
  · exact ⟨⟨h.dec, h.rd, fun m hm' => (by cases hm'), h.se, h.jobs⟩, rfl⟩

theorem NI.self {t : T} (h : NI d0 rd0 t) (hm : t.io.bs.marker = none) : NI d0 t.io.rd t :=
  ⟨h.dec, List.suffix_refl _, fun m hm' => (by rw [hm] at hm'; cases hm'), h.se, h.jobs⟩

theorem wpN_scanLoop (P : ProgFit d0) (hm : 0 < d0.hMax) (h3 : Three d0) :
    ∀ (fuel seen : Nat) (m : Marker) (bufs : List (List I16)) (t : T) (rd0 : List UInt8),
    NI d0 rd0 t → t.io.bs.marker = none → ProgBufs d0 bufs → t.io.rd.length < fuel →
    wpN (scanLoop fuel seen m bufs) (fun bufs' t' => Steady d0 t'.dec ∧ ProgBufs d0 bufs') t
  | 0, _, _, _, _, _, _, _, _, hf => by omega
  | fuel + 1, seen, m, bufs, t, rd0, h, hn, hb, hf => by
    unfold scanLoop
    cases m
    case eoi => exact ⟨h.dec, hb⟩
    case dht =>
      dsimp only
      rw [wpN, wp_bind]
      refine wpN_mono (wpN_liftTable (m := .dht) h3 h (by simp) (by simp)) ?_
      rintro _ t1 ⟨h1, hl, e⟩
      rw [wp_bind]
      refine wpN_mono (wpN_getMarker h1) ?_
      rintro m' t2 ⟨h2, hl2, hn2⟩
      exact wpN_scanLoop P hm h3 fuel seen m' bufs t2 rd0 h2 hn2 hb (by omega)
    case sos =>
      rw [wpN, wp_bind]
      refine wpN_mono (wpN_liftTable (m := .sos) h3 h (by simp) (by simp)) ?_
      rintro _ t1 ⟨h1, hl, e⟩
      rw [wp_bind, wp_modify, wp_bind]
      have h2 : NI d0 t1.io.rd { t1 with io := { t1.io with
          bs := t1.io.bs.updateProgressiveParams t1.dec.succHigh t1.dec.succLow t1.dec.specStart
            t1.dec.specEnd } } := ⟨h1.dec, List.suffix_refl _, fun m hm' => (by
              have hm2 : t1.io.bs.marker = some m := hm'
              rw [e, hn] at hm2
              cases hm2), h1.dec.spec.2, h1.jobs⟩
      refine wpN_mono (wpN_parseEntropy P hm hb h2) ?_
      rintro bufs' t3 ⟨h3', hb3⟩
      rw [wp_bind]
      refine wpN_mono (wpN_getMarker h3') ?_
      rintro m' t4 ⟨h4, hl4, hn4⟩
      rw [wp_bind, wp_get]
      refine wp_ite_of (fun _ => h4.jobs) fun _ => ?_
      rw [wp_bind, wp_modify]
      have := h4.rd.length_le
      exact wpN_scanLoop P hm h3 fuel (seen + 1) m' bufs' _ t1.io.rd
        ⟨h4.dec, h4.rd, fun m hm' => (by cases hm'), h4.se, h4.jobs⟩ rfl hb3 (by dsimp only; omega)
    all_goals exact ⟨h.dec, hb⟩

theorem wpN_progScans (P : ProgFit d0) (hm : 0 < d0.hMax) (h3 : Three d0) {bufs : List (List I16)}
    (hb : ProgBufs d0 bufs) {t : T} (h : NI d0 rd0 t) :
    wpN (progScans bufs) (fun bufs' t' => Steady d0 t'.dec ∧ ProgBufs d0 bufs') t := by
  unfold progScans
  rw [wpN, wp_bind]
  refine wpN_mono (wpN_parseEntropy P hm hb h) ?_
  rintro bufs' t1 ⟨h1, hb1⟩
  rw [wp_bind]
  refine wpN_mono (wpN_takeMarker h1) ?_
  rintro m t2 ⟨h2, hn⟩
  rw [wp_bind, wp_get]
  exact wpN_scanLoop P hm h3 _ _ _ _ _ rd0 h2 hn hb1 (by omega)

theorem wp_runScans (K : Steady d0 d0) (P : ProgFit d0) (hm : 0 < d0.hMax) (h3 : Three d0)
    {bufs : List (List I16)} (hb : ProgBufs d0 bufs) (rd : List UInt8) :
    wp False False (runScans bufs) (fun bufs' h' => Steady d0 h'.dec ∧ ProgBufs d0 bufs')
      (fun _ _ => True) ⟨d0, rd⟩ := by
  have hni : NI d0 rd { dec := d0, io := progIo ⟨d0, rd⟩ } :=
    ⟨K, List.suffix_refl _, fun m hm => (by cases hm), K.spec.2, fun j hj => (by cases hj)⟩
  have := wpN_progScans P hm h3 hb hni
  unfold wpN wp at this
  unfold wp runScans
  dsimp only
  rcases hr : progScans bufs { dec := d0, io := progIo ⟨d0, rd⟩ } with ⟨_ | _ | _ | _, t⟩ <;> rw [hr] at this
  · exact this
  · trivial
  · exact this
  · exact this
end

/-! ### The frame -/

theorem _root_.Zune.Spec.Frame.steady {d d' : Decoder} {w h fh fv : Nat} (F : Frame d w h fh fv)
    (K : Steady d d') : Frame d' w h fh fv := by
  have e := K.rest
  obtain ⟨c, cs, hc, c1, c2, c3, c4, hcs⟩ := F.comps
  have hmx : d'.mcuX = d.mcuX := by rw [e]
  refine ⟨by rw [e]; exact F.width, by rw [e]; exact F.height, F.wpos, F.hpos, F.fpos,
    by rw [e]; exact F.hMax, by rw [e]; exact F.vMax, by rw [e]; exact F.inter,
    by rw [e]; exact F.ratio, by rw [e]; exact F.mcuX, by rw [e]; exact F.mcuY, ?_⟩
  have hk := K.comps
  rw [hc] at hk
  rcases hx : d'.components with _ | ⟨c', cs'⟩
  · rw [hx] at hk; cases hk
  rw [hx] at hk
  cases hk with
  | cons ha hk =>
    unfold Alike at ha
    refine ⟨c', cs', rfl, fun hn => by rw [ha]; exact c1 hn, by rw [ha]; exact c2, by rw [ha]; exact c3,
      by rw [ha, hmx]; exact c4, ?_⟩
    intro x hxm
    obtain ⟨i, hi⟩ := List.getElem?_of_mem hxm
    obtain ⟨y, hy, hay⟩ := alike_get' hk hi
    obtain ⟨g1, g2, g3, g4⟩ := hcs y (List.mem_of_getElem? hy)
    unfold Alike at hay
    exact ⟨fun hn => by rw [hay]; exact g1 hn, by rw [hay]; exact g2, by rw [hay]; exact g3,
      by rw [hay, hmx]; exact g4⟩

section
variable {d : Decoder} {w h fh fv : Nat}

theorem collect_all_ok {α : Type} {l : List (Out α)} (h : ∀ o ∈ l, o.isOk = true) :
    ∃ p, Out.collect l = .ok p := by
  induction l with
  | nil => exact ⟨_, rfl⟩
  | cons a l ih =>
    obtain ⟨p, hp⟩ := ih fun j hm => h j (by simp [hm])
    have h1 := h a (by simp)
    cases a with
    | ok v => exact ⟨v :: p, by unfold Out.collect; rw [hp]; rfl⟩
    | _ => cases h1

theorem bind_collect_ok {α β : Type} {l : List (Out α)} {f : List α → Out β}
    (h : ∀ o ∈ l, o.isOk = true) (hf : ∀ x, ∃ r, f x = .ok r) :
    ∃ r, (Out.collect l).bind f = .ok r := by
  obtain ⟨p, hp⟩ := collect_all_ok h
  rw [hp]
  exact hf p

theorem progAlloc_returns (hc : d.inputColorspace.numComponents ≤ d.components.length) :
    ∃ r, progAlloc d = .ok r := by
  unfold progAlloc
  dsimp only
  generalize (if d.interleaved = true then d.mcuX else (d.info.width.toNat + 7) / 8) = a
  generalize (if d.interleaved = true then d.mcuY else (d.info.height.toNat + 7) / 8) = b
  refine bind_collect_ok ?_ fun x => ⟨_, rfl⟩
  intro o ho
  obtain ⟨i, hi, rfl⟩ := List.mem_map.1 ho
  rw [List.mem_range] at hi
  obtain ⟨c, hci⟩ : ∃ c, d.components[i]? = some c := ⟨_, List.getElem?_eq_getElem (by omega)⟩
  rw [hci]
  rfl

theorem progAlloc_fits (F : Frame d w h fh fv)
    (hn : d.components.length = d.inputColorspace.numComponents)
    {mw : Nat} {bufs : List (List I16)} (ha : progAlloc d = .ok (mw, bufs)) :
    mw = d.mcuX * 64 ∧ ProgBufs d bufs ∧ ProgFit d := by
  have hlt : ∀ {pos : Nat} {c : Component}, d.components[pos]? = some c →
      pos < d.inputColorspace.numComponents := by
    intro pos c hc
    rw [← hn]
    exact (List.getElem?_eq_some_iff.1 hc).1
  have hbuf : ∀ {pos : Nat} {c : Component}, d.components[pos]? = some c → ∀ {buf : List I16} {n : Nat},
      bufs[pos]? = some buf → buf.length = 64 * n → progLen d c = 64 * n := by
    intro pos c hc buf n h1 h2
    obtain ⟨-, b, b1, b2⟩ := progAlloc_buf F ha hc (hlt hc)
    rw [h1] at b1
    cases b1
    unfold progLen
    omega
  refine ⟨?_, fun pos c hc => (progAlloc_buf F ha hc (hlt hc)).2, ?_, ?_⟩
  · obtain ⟨c, cs, hc, -⟩ := F.comps
    exact (progAlloc_buf F ha (pos := 0) (c := c) (by rw [hc]; rfl) (hlt (c := c) (by rw [hc]; rfl))).1
  · intro pos c hc i j cols rows hcr hi hj
    obtain ⟨buf, n, b1, b2, hin, -⟩ := c30_single F ha hc (hlt hc) hcr
    obtain ⟨k, hk, e⟩ := hin (i, j) ⟨hi, hj⟩
    dsimp only at e
    rw [e, hbuf hc b1 b2]
    omega
  · intro pos c hc i j vs hs h1 h2 h3 h4
    obtain ⟨buf, n, b1, b2, hin, -⟩ := c30_interleaved F ha hc (hlt hc)
    obtain ⟨k, hk, e⟩ := hin (i, j, vs, hs) ⟨h1, h2, h3, h4⟩
    dsimp only at e
    rw [e, hbuf hc b1 b2]
    omega

theorem returns_ofOut_bind {σ α β : Type} {o : Out α} {f : α → M σ β} {s : σ} (h : M.Returns o)
    (hf : ∀ a, o = .ok a → M.Returns (f a s).1) : M.Returns ((M.ofOut o >>= f) s).1 := by
  rcases h with ⟨a, rfl⟩ | ⟨e, rfl⟩
  · exact hf a rfl
  · exact Or.inr ⟨e, rfl⟩

/-- The end of a progressive image does not panic if its jobs do not. -/
theorem finish_returns {d' : Decoder} {rd : List UInt8} {bufs : List (List I16)} {n mw bias : Nat}
    (hset : finishSetup n ⟨d, rd⟩ = (.ok (mw, bias), ⟨d', rd⟩)) {ss : List (List (List I16))}
    (hss : progStrips d' mw bias bufs = .ok ss)
    (hj : ∀ s ∈ ss, (postProcess d'.idctFn d'.colorFn d'.components d'.inputColorspace
      d'.options.getOutColorspace d'.info.width.toNat s (List.replicate (chunkLen d') 0)).isOk = true) :
    M.Returns (finishProgressive bufs n ⟨d, rd⟩).1 := by
  unfold finishProgressive
  rw [M.bind_ok hset]
  dsimp only
  rw [M.bind_ok (getDec_apply _ _)]
  refine returns_ofOut_bind (Or.inl ⟨ss, hss⟩) fun ss' e => ?_
  rw [hss] at e
  cases e
  refine returns_ofOut_bind (joinPool_returns (Or.inl ⟨(), rfl⟩) ?_) fun parts _ => Or.inl ⟨_, rfl⟩
  intro j hm
  obtain ⟨s, hs, rfl⟩ := List.mem_map.1 hm
  exact hj s hs

theorem finish_colour_returns {c0 c1 c2 : Component} (R : ColourFrame d c0 c1 c2 w h fh fv)
    (hf3 : d.colorFn.Three) (hconv : Converts d.colorFn d.options.getOutColorspace w fh fv)
    (bufs : List (List I16)) (rd : List UInt8) :
    M.Returns (finishProgressive bufs (d.mcuX * 64) ⟨d, rd⟩).1 := by
  obtain ⟨r, u1, u2, mw', bias, hsetup, hmw, hu⟩ := finishSetup_colour R (d.mcuX * 64) rd
  obtain ⟨q1, q2, q3, q4, q5⟩ := R.shape
  have F := R.frame
  have hf := F.fpos
  have hw0 := F.wpos
  have hX : d.mcuX = mcuCols w fh := F.mcuX
  have hX0 : 0 < mcuCols w fh := by
    unfold mcuCols
    apply Nat.div_pos <;> omega
  have hnp := numComponents_pos d.options.getOutColorspace
  have hchunk : chunkLen (prepDec d c0 c1 c2 r u1 u2) =
      8 * (fh * fv) * (w * d.options.getOutColorspace.numComponents) := by
    show d.info.width.toNat * d.options.getOutColorspace.numComponents * 8 * d.hMax * d.vMax = _
    rw [F.width, F.hMax, F.vMax]
    ring
  have hch0 : chunkLen (prepDec d c0 c1 c2 r u1 u2) ≠ 0 := by
    rw [hchunk]
    have := hf.1
    have := hf.2
    positivity
  obtain ⟨-, a1, a2, a3⟩ := q5 c1 (by simp)
  obtain ⟨-, -, -, a4⟩ := q5 c2 (by simp)
  have n0 : mw' * c0.verticalSample * c0.horizontalSample * bias = fh * fv * (64 * (fh * mcuCols w fh)) := by
    rw [q2, q3, ← hX]
    calc mw' * fv * fh * bias = mw' * bias * (fh * fv) := by ring
      _ = _ := by rw [hmw]; ring
  have n1 : mw' * c1.verticalSample * c1.horizontalSample * bias = fh * (64 * mcuCols w fh) := by
    rw [a1, a2, ← hX]
    calc mw' * 1 * 1 * bias = mw' * bias := by ring
      _ = _ := by rw [hmw]; ring
  have p0 : fh * fv * (64 * (fh * mcuCols w fh)) ≠ 0 := by
    have := hf.1
    have := hf.2
    positivity
  have p1 : fh * (64 * mcuCols w fh) ≠ 0 := by
    have := hf.1
    positivity
  refine finish_returns (ss := ((((chunksExact (fh * fv * (64 * (fh * mcuCols w fh))) (bufs.getD 0 [])).zip
    ((chunksExact (fh * (64 * mcuCols w fh)) (bufs.getD 1 [])).zip
      (chunksExact (fh * (64 * mcuCols w fh)) (bufs.getD 2 [])))).take
        (outBufferLen (prepDec d c0 c1 c2 r u1 u2) / chunkLen (prepDec d c0 c1 c2 r u1 u2))).map
          fun (y, cb, cr) => [y, cb, cr])) hsetup ?_ ?_
  · unfold progStrips
    have hc0 : (prepDec d c0 c1 c2 r u1 u2).components[0]? = some c0 := rfl
    have hc1 : (prepDec d c0 c1 c2 r u1 u2).components[1]? = some { c1 with upSampler := u1 } := rfl
    rw [hc0]
    dsimp only
    rw [n0, if_neg (by rintro (h | h); exact hch0 h; exact p0 h)]
    rw [if_pos (by show d.inputColorspace.numComponents = 3; rw [R.inCs]; rfl)]
    rw [hc1]
    dsimp only
    rw [n1, if_neg p1]
  · intro s hs
    obtain ⟨⟨y, cb, cr⟩, hmem, rfl⟩ := List.mem_map.1 hs
    have hz := List.of_mem_zip (List.mem_of_mem_take hmem)
    have hz2 := List.of_mem_zip hz.2
    have l0 := chunk_length hz.1
    have l1 := chunk_length hz2.1
    have l2 := chunk_length hz2.2
    show (postProcess d.idctFn d.colorFn [c0, { c1 with upSampler := u1 }, { c2 with upSampler := u2 }]
      d.inputColorspace d.options.getOutColorspace d.info.width.toNat [y, cb, cr]
      (List.replicate (chunkLen (prepDec d c0 c1 c2 r u1 u2)) 0)).isOk = true
    rw [R.inCs, F.width, hchunk]
    refine colour_job_ok (cpu := d.cpu) (un := d.options.useUnsafe) (r := r) hf3 (X := mcuCols w fh) rfl
      ⟨hf.1, R.fh2⟩ ⟨hf.2, R.fv2⟩ F.wpos q2 q3 (by rw [q4, hX]; ring) ⟨?_, ?_⟩ hu hconv
      ⟨y, rfl, l0⟩ ?_
    · show c1.widthStride = _
      rw [a3, hX]
      ring
    · show c2.widthStride = _
      rw [a4, hX]
      ring
    · rintro i (rfl | rfl) -
      · exact ⟨cb, rfl, l1⟩
      · exact ⟨cr, rfl, l2⟩

theorem finish_gray_returns {c : Component} (F : Frame d w h 1 1) (hcs : d.components = [c])
    (hin : d.inputColorspace = .grayscale) (hout : d.options.getOutColorspace = .grayscale)
    (hconv : Converts d.colorFn d.options.getOutColorspace w 1 1)
    (bufs : List (List I16)) (rd : List UInt8) :
    M.Returns (finishProgressive bufs (d.mcuX * 64) ⟨d, rd⟩).1 := by
  obtain ⟨c0, cs, e, -, e1, e2, e3, -⟩ := F.comps
  rw [hcs] at e
  obtain ⟨rfl, rfl⟩ := List.cons.inj e
  have hw0 := F.wpos
  have hX : d.mcuX = (w + 7) / 8 := by rw [F.mcuX]; omega
  have hup : Decoder.setUpsampling d = (.ok (), d) := by
    unfold Decoder.setUpsampling
    rw [if_pos ⟨by rw [F.hMax, F.vMax], F.hMax⟩]
  have hset : finishSetup (d.mcuX * 64) ⟨d, rd⟩ = (.ok (d.mcuX * 64, 1), ⟨d, rd⟩) := by
    have hl : liftDec Decoder.setUpsampling (⟨d, rd⟩ : H) = (.ok (), ⟨d, rd⟩) := by
      unfold liftDec
      rw [hup]
    have hi : d.interleaved = false := F.inter
    unfold finishSetup
    rw [M.bind_ok hl, M.bind_ok (getDec_apply _ _), if_neg (by rw [hi]; rintro ⟨-, h⟩; cases h),
      F.ratio ⟨rfl, rfl⟩, if_neg (by decide), if_neg (by decide)]
    rfl
  have hchunk : chunkLen d = 8 * w := by
    unfold chunkLen
    rw [F.width, F.hMax, F.vMax, hout]
    show w * 1 * 8 * 1 * 1 = _
    omega
  have n0 : d.mcuX * 64 * c.verticalSample * c.horizontalSample * 1 = 64 * ((w + 7) / 8) := by
    rw [e1, e2, hX]
    omega
  refine finish_returns (ss := ((chunksExact (64 * ((w + 7) / 8)) (bufs.getD 0 [])).take
    (outBufferLen d / chunkLen d)).map fun y => [y, [], []]) hset ?_ ?_
  · unfold progStrips
    have h0 : d.components[0]? = some c := by rw [hcs]; rfl
    rw [h0]
    dsimp only
    rw [n0, if_neg (by rw [hchunk]; omega), if_neg (by rw [hin]; decide)]
  · intro s hs
    obtain ⟨y, hmem, rfl⟩ := List.mem_map.1 hs
    have l0 := chunk_length (List.mem_of_mem_take hmem)
    have hfit := hconv.1 hout
    have hm : mcuCols w 1 = (w + 7) / 8 := rfl
    rw [hcs, hin, hout, F.width, hchunk]
    refine gray_job_ok (Or.inr rfl) (b := (w + 7) / 8) (by omega) (by rw [e1, e2]; decide) rfl
      (by rw [e3, hX]; omega) (by omega) hw0 ?_ rfl ?_ ?_
    · rw [e1, e2]
      rw [hm] at hfit
      omega
    · rw [l0, e1, e2]
      omega
    · rw [List.length_replicate, e1, e2]

theorem finishSetup_sampled {c : Component} (F : Frame d w h fh fv) (hcs : d.components = [c])
    (hin : d.inputColorspace = .grayscale) (hf : ¬ (fh = 1 ∧ fv = 1)) (n : Nat) (rd : List UInt8) :
    (∃ e s, finishSetup n ⟨d, rd⟩ = (.err e, s)) ∨
      ∃ mw r, fh ≤ 2 ∧ fv ≤ 2 ∧ n ≤ mw ∧ (r = SubSampRatios.none) ∧
        finishSetup n ⟨d, rd⟩ = (.ok (mw, 1), ⟨{ d with
          hMax := 1, vMax := 1, subSampleRatio := r
          components := [{ c with verticalSample := 1, widthStride := mw * 8, horizontalSample := mw }] },
          rd⟩) := by
  have hi : d.interleaved = true := by
    rw [F.inter]
    by_cases e : fh = 1 ∧ fv = 1
    · exact absurd e hf
    · simp [e]
  have hup := wp_setUpsampling (h := ⟨d, rd⟩) (by dsimp only; rw [hcs]; simp)
  unfold wp at hup
  unfold finishSetup
  rcases hs : liftDec Decoder.setUpsampling (⟨d, rd⟩ : H) with ⟨_ | er | _ | _, ⟨d1, rd1⟩⟩
  · rw [hs] at hup
    obtain ⟨hrd, hset⟩ := hup
    dsimp only at hrd hset
    subst hrd
    rw [M.bind_ok hs, M.bind_ok (getDec_apply _ _)]
    rcases setUpsampling_ok hset with ⟨a, b, -⟩ | ⟨r, u, c', cs', hsamp, hc', hd1⟩
    · rw [F.hMax] at a
      rw [F.vMax] at b
      exact absurd ⟨a, b⟩ hf
    · rw [hcs] at hc'
      obtain ⟨rfl, rfl⟩ := List.cons.inj hc'
      rw [F.hMax, F.vMax] at hsamp
      have h12 : fh ≤ 2 ∧ fv ≤ 2 := by
        unfold Sampling at hsamp
        omega
      have g1 : d1.inputColorspace = .grayscale := by rw [hd1]; exact hin
      have g2 : d1.interleaved = true := by rw [hd1]; exact hi
      rw [if_pos ⟨g1, g2⟩]
      by_cases hst : d1.options.getStrictMode = true
      · rw [if_pos hst]
        exact Or.inl ⟨_, _, rfl⟩
      · rw [if_neg hst]
        have g3 : d1.components = [c] := by rw [hd1]; rfl
        rw [if_neg (by rw [g3]; simp)]
        refine Or.inr ⟨if d1.subSampleRatio = .h then n * 2 else n, .none, h12.1, h12.2, ?_, rfl, ?_⟩
        · split <;> omega
        · rw [hd1]
          rfl
  · left
    exact ⟨er, _, by rw [M.bind_apply, hs]⟩
  · rw [hs] at hup
    exact absurd hup id
  · rw [hs] at hup
    exact absurd hup id

/-- With sampling factors the code takes a strip of a progressive grayscale image to be larger than
the whole image (`mcu_prog.rs:166, 190`), so that nothing is written. -/
theorem finish_gray_black {c : Component} (F : Frame d w h fh fv) (hcs : d.components = [c])
    (hin : d.inputColorspace = .grayscale) (hout : d.options.getOutColorspace = .grayscale)
    (hf : ¬ (fh = 1 ∧ fv = 1)) (wLe : w ≤ 65527) (hLe : h ≤ 65527) (low : h + 15 < 16 * w)
    {bufs : List (List I16)} {buf : List I16} (hb : bufs[0]? = some buf)
    (hl : buf.length = progLen d c) (rd : List UInt8) :
    (∃ e, (finishProgressive bufs (d.mcuX * 64) ⟨d, rd⟩).1 = .err e) ∨
      (finishProgressive bufs (d.mcuX * 64) ⟨d, rd⟩).1 = .ok (List.replicate (w * h) 0) := by
  obtain ⟨c0, cs, e, -, e1, e2, e3, -⟩ := F.comps
  rw [hcs] at e
  obtain ⟨rfl, rfl⟩ := List.cons.inj e
  have hw0 := F.wpos
  have hh0 := F.hpos
  have hX : d.mcuX = (w + 8 * fh - 1) / (8 * fh) := F.mcuX
  have hY : d.mcuY = (h + 8 * fv - 1) / (8 * fv) := F.mcuY
  unfold finishProgressive
  rcases finishSetup_sampled F hcs hin hf (d.mcuX * 64) rd with ⟨er, s, hs⟩ | ⟨mw, r, h1, h2, hn, -, hs⟩
  · left
    exact ⟨er, by rw [M.bind_apply, hs]⟩
  · right
    rw [M.bind_ok hs]
    dsimp only
    rw [M.bind_ok (getDec_apply _ _)]
    obtain ⟨d2, hd2⟩ : ∃ d2, ({ d with
          hMax := 1, vMax := 1, subSampleRatio := r
          components := [{ c with verticalSample := 1, widthStride := mw * 8, horizontalSample := mw }] } :
          Decoder) = d2 := ⟨_, rfl⟩
    rw [hd2]
    have k1 : d2.components = [{ c with verticalSample := 1, widthStride := mw * 8, horizontalSample := mw }] := by
      rw [← hd2]
    have k2 : chunkLen d2 = 8 * w := by
      rw [← hd2]
      show d.info.width.toNat * d.options.getOutColorspace.numComponents * 8 * 1 * 1 = _
      rw [F.width, hout]
      show w * 1 * 8 * 1 * 1 = _
      omega
    have k3 : d2.inputColorspace = .grayscale := by rw [← hd2]; exact hin
    have k4 : keepLen d2 = w * h := by
      rw [← hd2]
      show d.info.width.toNat * d.info.height.toNat * d.options.getOutColorspace.numComponents = _
      rw [F.width, F.height, hout]
      exact Nat.mul_one _
    have k5 : w * h ≤ outBufferLen d2 := by
      have e : d2.info = d.info := by rw [← hd2]
      have e' : d2.options = d.options := by rw [← hd2]
      unfold outBufferLen
      rw [e, e', hout]
      have a1 : (d.info.width + 8).toNat = w + 8 := by
        rw [UInt16.toNat_add, F.width]
        show (w + 8) % 65536 = _
        omega
      have a2 : (d.info.height + 8).toNat = h + 8 := by
        rw [UInt16.toNat_add, F.height]
        show (h + 8) % 65536 = _
        omega
      dsimp only
      rw [a1, a2]
      have : w * h ≤ (w + 8) * (h + 8) := Nat.mul_le_mul (by omega) (by omega)
      have e1 : ColorSpace.grayscale.numComponents = 1 := rfl
      rw [e1]
      omega
    have hX0 : 0 < d.mcuX := by
      rw [hX]
      have := F.fpos.1
      apply Nat.div_pos <;> omega
    have hshort : buf.length < mw * 1 * mw * 1 := by
      have hc : c.horizontalSample * (d.mcuY * c.verticalSample) < 64 * d.mcuX := by
        rw [e1, e2, hX, hY]
        have p1 := F.fpos.1
        have p2 := F.fpos.2
        have q1 : fh = 1 ∨ fh = 2 := by omega
        have q2 : fv = 1 ∨ fv = 2 := by omega
        rcases q1 with rfl | rfl <;> rcases q2 with rfl | rfl
        · exact absurd ⟨rfl, rfl⟩ hf
        all_goals omega
      rw [hl]
      unfold progLen
      calc 64 * (d.mcuX * c.horizontalSample * (d.mcuY * c.verticalSample))
          = 64 * d.mcuX * (c.horizontalSample * (d.mcuY * c.verticalSample)) := by ring
        _ < 64 * d.mcuX * (64 * d.mcuX) := Nat.mul_lt_mul_of_pos_left hc (by omega)
        _ ≤ mw * mw := Nat.mul_le_mul (by omega) (by omega)
        _ = _ := by ring
    have hps : progStrips d2 mw 1 bufs = .ok [] := by
      unfold progStrips
      rw [k1]
      dsimp only [List.getElem?_cons_zero]
      rw [if_neg (by rw [k2]; rintro (e | e) <;> omega), if_neg (by rw [k3]; decide)]
      have : chunksExact (mw * 1 * mw * 1) (bufs.getD 0 []) = [] := by
        unfold chunksExact
        have : bufs.getD 0 [] = buf := by
          rw [List.getD_eq_getElem?_getD, hb]
          rfl
        rw [this, Nat.div_eq_of_lt hshort]
        rfl
      rw [this, List.take_nil]
      rfl
    rw [hps]
    show Out.ok (assemble (outBufferLen d2) (keepLen d2) []) = _
    unfold assemble fit
    rw [k4]
    simp only [List.flatten_nil, List.nil_append, List.length_nil, Nat.sub_zero, List.take_replicate]
    congr 2
    omega

/-- A progressive image gives a result or an error. A grayscale image with sampling factors has
zeros only. -/
theorem wp_progressive (U : Usual d w h fh fv) (K : Steady d d) (h3 : Three d) (hf3 : d.colorFn.Three)
    (hconv : d.inputColorspace ≠ .grayscale ∨ (fh = 1 ∧ fv = 1) →
      Converts d.colorFn d.options.getOutColorspace w fh fv)
    (hg : d.inputColorspace = .grayscale → (fh = 1 ∧ fv = 1) ∨ h + 15 < 16 * w) (rd : List UInt8) :
    wp False False decodeProgressive (fun out _ => d.inputColorspace = .grayscale →
      ¬ (fh = 1 ∧ fv = 1) → out = List.replicate (w * h) 0) (fun _ _ => True) ⟨d, rd⟩ := by
  have F := U.frame
  have hm : 0 < d.hMax := by rw [F.hMax]; exact F.fpos.1
  have hcn : d.components.length = d.inputColorspace.numComponents := by
    rcases U.kind with ⟨c0, c1, c2, e1, e2⟩ | ⟨c, e1, e2, -⟩ <;> rw [e1, e2] <;> rfl
  unfold decodeProgressive
  rw [wp_bind, wp_getDec]
  dsimp only
  rw [wp_bind]
  refine wp_ofOut_returns (checkComponentDimensions_returns hm) (fun _ hdim => ?_) fun _ => trivial
  obtain ⟨⟨mw, bufs⟩, ha⟩ := progAlloc_returns (d := d) (by rw [hcn])
  rw [wp_bind]
  refine wp_ofOut_returns (Or.inl ⟨_, ha⟩) (fun x e => ?_) fun _ => trivial
  rw [ha] at e
  cases e
  obtain ⟨rfl, hb, P⟩ := progAlloc_fits F hcn ha
  dsimp only
  have hr := wp_runScans K P hm h3 hb rd
  rw [wp_bind]
  refine wp_mono hr ?_ fun _ _ h => h
  rintro bufs' ⟨d', rd'⟩ ⟨K', hb'⟩
  dsimp only at K'
  have F' := F.steady K'
  have hmx : d'.mcuX = d.mcuX := by rw [K'.rest]
  have hcf : d'.colorFn = d.colorFn := by rw [K'.rest]
  have hopt := K'.opts
  have hin := K'.inCs
  have hal := K'.comps
  have hret : M.Returns (finishProgressive bufs' (d'.mcuX * 64) ⟨d', rd'⟩).1 ∧
      (d.inputColorspace = .grayscale → ¬ (fh = 1 ∧ fv = 1) →
        (∃ e, (finishProgressive bufs' (d'.mcuX * 64) ⟨d', rd'⟩).1 = .err e) ∨
        (finishProgressive bufs' (d'.mcuX * 64) ⟨d', rd'⟩).1 = .ok (List.replicate (w * h) 0)) := by
    rcases U.kind with ⟨c0, c1, c2, e1, e2⟩ | ⟨c, e1, e2, e3⟩
    · rw [e1] at hal
      obtain ⟨c0', c1', c2', e'⟩ : ∃ c0' c1' c2', d'.components = [c0', c1', c2'] := by
        have := hal.length_eq
        match hd : d'.components, this with
        | [a, b, c], _ => exact ⟨a, b, c, rfl⟩
      refine ⟨?_, fun e => by rw [e2] at e; cases e⟩
      have hconv := hconv (Or.inl (by rw [e2]; decide))
      by_cases h12 : fh ≤ 2 ∧ fv ≤ 2
      · exact finish_colour_returns ⟨F', e', by rw [K'.dims, hdim], by rw [hin, e2], h12.1, h12.2, U.wLe, U.hLe⟩
          (by rw [hcf]; exact hf3) (by rw [hcf, hopt]; exact hconv) bufs' rd'
      · refine M.wp_returns (Q := fun _ _ => True) (E := fun _ _ => True) ?_
        unfold finishProgressive finishSetup
        rw [wp_bind, wp_bind]
        refine wp_mono (wp_setUpsampling (by dsimp only; rw [e']; simp)) ?_ fun _ _ h => h
        rintro _ h1 ⟨-, hu⟩
        exfalso
        rcases setUpsampling_ok hu with ⟨a, b, -⟩ | ⟨r, u, c, cs, hs, -, -⟩
        · dsimp only at a b
          rw [F'.hMax] at a
          rw [F'.vMax] at b
          omega
        · dsimp only at hs
          rw [F'.hMax, F'.vMax] at hs
          unfold Sampling at hs
          omega
    · rw [e1] at hal
      obtain ⟨c', e'⟩ : ∃ c', d'.components = [c'] := by
        have := hal.length_eq
        match hd : d'.components, this with
        | [a], _ => exact ⟨a, rfl⟩
      by_cases h11 : fh = 1 ∧ fv = 1
      · have hconv := hconv (Or.inr h11)
        obtain ⟨rfl, rfl⟩ := h11
        exact ⟨finish_gray_returns F' e' (by rw [hin, e2]) (by rw [hopt, e3])
          (by rw [hcf, hopt]; exact hconv) bufs' rd', fun _ hn => absurd ⟨rfl, rfl⟩ hn⟩
      · obtain ⟨buf, b1, b2⟩ := hb' 0 c (by rw [e1]; rfl)
        have hlen : buf.length = progLen d' c' := by
          rw [b2]
          have ha : Alike c c' := by
            rw [e'] at hal
            cases hal with
            | cons h _ => exact h
          have hmy : d'.mcuY = d.mcuY := by rw [K'.rest]
          unfold progLen
          rw [hmx, hmy]
          unfold Alike at ha
          rw [ha]
        have := finish_gray_black F' e' (by rw [hin, e2]) (by rw [hopt, e3]) h11 U.wLe U.hLe
          ((hg e2).resolve_left h11) b1 hlen rd'
        refine ⟨?_, fun _ _ => this⟩
        rcases this with ⟨e, he⟩ | he
        · exact Or.inr ⟨e, he⟩
        · exact Or.inl ⟨_, he⟩
  rw [hmx] at hret
  obtain ⟨hret, hblack⟩ := hret
  unfold wp
  rcases hret with ⟨a, e⟩ | ⟨er, e⟩
  · rcases hx : finishProgressive bufs' (d.mcuX * 64) ⟨d', rd'⟩ with ⟨_ | _ | _ | _, s⟩ <;>
      rw [hx] at e <;> cases e
    intro h1 h2
    rcases hblack h1 h2 with ⟨e, he⟩ | he <;> rw [hx] at he <;> cases he
    rfl
  · rcases hx : finishProgressive bufs' (d.mcuX * 64) ⟨d', rd'⟩ with ⟨_ | _ | _ | _, s⟩ <;>
      rw [hx] at e <;> cases e
    trivial

/-- A progressive image gives a result or an error. -/
theorem progressive_returns (U : Usual d w h fh fv) (K : Steady d d) (h3 : Three d) (hf3 : d.colorFn.Three)
    (hconv : d.inputColorspace ≠ .grayscale ∨ (fh = 1 ∧ fv = 1) →
      Converts d.colorFn d.options.getOutColorspace w fh fv)
    (hg : d.inputColorspace = .grayscale → (fh = 1 ∧ fv = 1) ∨ h + 15 < 16 * w) (rd : List UInt8) :
    M.Returns (decodeProgressive ⟨d, rd⟩).1 :=
  M.wp_returns (wp_progressive U K h3 hf3 hconv hg rd)
end

end Zune
