import Verif.Lemmas.Decode
import Verif.Lemmas.Slice
/-! Scans do not panic while the frame stays the same. -/

namespace Zune
open M (wp wp_bind wp_mono wp_pure wp_throw wp_idx wp_idx_of wp_okOr wp_ofOut wp_failIf wp_ite_of
  wp_diverge wp_panic wp_unwrap wp_get wp_modify)
open Spec

/-- The same component, apart from what scans change. -/
def Alike (c c' : Component) : Prop :=
  c' = { c with dcPred := c'.dcPred, dcHuffTable := c'.dcHuffTable, acHuffTable := c'.acHuffTable }

theorem Alike.refl (c : Component) : Alike c c := rfl

theorem Alike.trans {a b c : Component} (h1 : Alike a b) (h2 : Alike b c) : Alike a c := by
  unfold Alike at *
  rw [h2, h1]

theorem alike_trans {a b c : List Component} (h1 : List.Forall₂ Alike a b)
    (h2 : List.Forall₂ Alike b c) : List.Forall₂ Alike a c := by
  induction h1 generalizing c with
  | nil => cases h2; exact .nil
  | cons h _ ih =>
    cases h2 with
    | cons h' h2 => exact .cons (h.trans h') (ih h2)

theorem alike_refl (l : List Component) : List.Forall₂ Alike l l :=
  List.forall₂_same.2 fun _ _ => rfl

theorem alike_get {l l' : List Component} (h : List.Forall₂ Alike l l') {i : Nat} {c : Component}
    (hi : l[i]? = some c) : ∃ c', l'[i]? = some c' ∧ Alike c c' := by
  induction h generalizing i with
  | nil => cases hi
  | cons h _ ih =>
    cases i with
    | zero => cases hi; exact ⟨_, rfl, h⟩
    | succ i => exact ih hi

theorem alike_get' {l l' : List Component} (h : List.Forall₂ Alike l l') {i : Nat} {c' : Component}
    (hi : l'[i]? = some c') : ∃ c, l[i]? = some c ∧ Alike c c' := by
  induction h generalizing i with
  | nil => cases hi
  | cons h _ ih =>
    cases i with
    | zero => cases hi; exact ⟨_, rfl, h⟩
    | succ i => exact ih hi

/-- What scans keep of the decoder `d0`. -/
structure Steady (d0 d : Decoder) : Prop where
  rest : d = { d0 with
    qtTables := d.qtTables, dcTables := d.dcTables, acTables := d.acTables
    restartInterval := d.restartInterval, todo := d.todo, components := d.components
    zOrder := d.zOrder, numScans := d.numScans, specStart := d.specStart, specEnd := d.specEnd
    succHigh := d.succHigh, succLow := d.succLow }
  qt : d.qtTables.length = 4
  tables : TablesOk d
  comps : List.Forall₂ Alike d0.components d.components
  z : d.zOrder.length = 4
  spec : d.specStart ≤ 63 ∧ d.specEnd ≤ 63

theorem DecInv.steady {d0 d : Decoder} (I : DecInv d0 d) : Steady d d :=
  ⟨rfl, I.qt, I.tables, alike_refl _, I.z, I.spec⟩

section
variable {d0 d d' : Decoder}

theorem Steady.info (h : Steady d0 d) : d.info = d0.info := by rw [h.rest]
theorem Steady.inCs (h : Steady d0 d) : d.inputColorspace = d0.inputColorspace := by rw [h.rest]
theorem Steady.opts (h : Steady d0 d) : d.options = d0.options := by rw [h.rest]

theorem alike_checkDims (cw : Nat) : ∀ {cs cs' : List Component}, List.Forall₂ Alike cs cs' →
    checkDims cw cs' = checkDims cw cs
  | [], _, h => by cases h; rfl
  | c :: cs, _, h => by
    cases h with
    | cons h1 h2 =>
      rw [checkDims, checkDims, alike_checkDims cw h2, h1]

theorem alike_find : ∀ {cs cs' : List Component}, List.Forall₂ Alike cs cs' →
    (cs'.find? (fun c => c.componentId = .y)).map Component.widthStride =
      (cs.find? (fun c => c.componentId = .y)).map Component.widthStride
  | [], _, h => by cases h; rfl
  | c :: cs, _, h => by
    cases h with
    | cons h1 h2 =>
      rw [List.find?_cons, List.find?_cons, h1]
      dsimp only
      cases decide (c.componentId = .y)
      · exact alike_find h2
      · rfl

/-- The check of the dimensions depends on what stays the same only. -/
theorem Steady.dims (h : Steady d0 d) : d.checkComponentDimensions = d0.checkComponentDimensions := by
  have hm : d.hMax = d0.hMax := by rw [h.rest]
  have hf := alike_find h.comps
  unfold Decoder.checkComponentDimensions
  rw [hm]
  generalize d.components.find? _ = x at hf
  generalize d0.components.find? _ = y at hf
  rcases x with _ | x <;> rcases y with _ | y <;> simp only [Option.map_none, Option.map_some] at hf
  · rfl
  · cases hf
  · cases hf
  · have hf : x.widthStride = y.widthStride := by simpa using hf
    dsimp only
    rw [hf, alike_checkDims _ h.comps]

theorem Steady.length (h : Steady d0 d) : d.components.length = d0.components.length :=
  h.comps.length_eq.symm

theorem Steady.todo (h : Steady d0 d) (n : Nat) : Steady d0 { d with todo := n } :=
  ⟨by dsimp only; rw [h.rest], h.qt, h.tables.of_eq rfl rfl, h.comps, h.z, h.spec⟩

theorem Steady.preds (h : Steady d0 d) {cs : List Component}
    (hc : List.Forall₂ SameButPred d.components cs) : Steady d0 { d with components := cs } := by
  refine ⟨by dsimp only; rw [h.rest], h.qt, h.tables.of_eq rfl rfl, ?_, h.z, h.spec⟩
  refine alike_trans h.comps (hc.imp ?_)
  intro a b hab
  unfold SameButPred at hab
  unfold Alike
  rw [hab]

theorem Steady.tablesOnly (h : Steady d0 d) (ht : TablesOnly d d') : Steady d0 d' := by
  have hd := ht.dec
  have hc : d'.components = d.components := by rw [hd]
  refine ⟨?_, by rw [ht.qt]; exact h.qt, ht.tables h.tables, by rw [hc]; exact h.comps,
    by rw [hd]; exact h.z, by rw [hd]; exact h.spec⟩
  rw [hd]
  dsimp only
  rw [h.rest]

theorem Steady.sos (h : Steady d0 d) {rd rd' : List UInt8}
    {x y n ss se a : UInt8} {ps : List (UInt8 × UInt8)}
    (hs : SosOk d rd d' rd' x y n ss se a ps) : Steady d0 d' := by
  have hd := hs.dec
  have hz := hs.comps.zlen
  have hc := hs.comps.comps
  refine ⟨?_, by rw [hd]; exact h.qt, h.tables.of_eq (by rw [hd]) (by rw [hd]), ?_, ?_, ?_⟩
  · rw [hd]
    dsimp only
    rw [h.rest]
  · refine alike_trans h.comps (hc.imp ?_)
    intro a b hab
    unfold SameButTables at hab
    unfold Alike
    rw [hab]
  · dsimp only at hz; rw [hz]; exact h.z
  · rw [hd]; exact ⟨and63_le _, and63_le _⟩

theorem Steady.effect {s s' : H} {m : Marker} (h : Steady d0 s.dec) (h0 : m ≠ .sof 0)
    (h2 : m ≠ .sof 2) (he : Effect m s s') : Steady d0 s'.dec := by
  unfold Effect at he
  split at he
  · exact absurd rfl h0
  · exact absurd rfl h2
  · obtain ⟨x, y, n, ss, se, a, ps, he⟩ := he
    exact h.sos he
  · exact h.tablesOnly he
end

/-- The frame has one to three components. -/
structure Three (d0 : Decoder) : Prop where
  small : d0.components.length ≤ 3
  count : d0.info.components.toNat ≤ d0.components.length

/-- No frame header follows in `rd0`. -/
def NoSof (rd0 : List UInt8) : Prop := ¬ Announced (.sof 0) rd0 ∧ ¬ Announced (.sof 2) rd0

/-- All jobs so far went well. -/
def JobsOk (t : T) : Prop := ∀ j ∈ t.jobs, j.isOk = true

/-- The invariant of a scan. -/
structure NI (d0 : Decoder) (rd0 : List UInt8) (t : T) : Prop where
  dec : Steady d0 t.dec
  rd : t.io.rd <:+ rd0
  marker : ∀ m, t.io.bs.marker = some m → Announced m rd0
  se : t.io.bs.specEnd ≤ 63
  jobs : JobsOk t

/-- Neither panic nor divergence; the jobs of a failed scan went well. -/
abbrev wpN {α : Type} (m : M T α) (Q : α → T → Prop) (t : T) : Prop :=
  wp False False m Q (fun _ t' => JobsOk t') t

section
variable {d0 : Decoder} {rd0 : List UInt8}

theorem NI.io {t : T} (h : NI d0 rd0 t) {s : B} (hs : SameP t.io s) :
    NI d0 rd0 { t with io := s } := by
  refine ⟨h.dec, hs.rd.trans h.rd, fun m hm => ?_, by rw [hs.se]; exact h.se, h.jobs⟩
  rcases hs.marker m hm with h1 | h1
  · exact h.marker m h1
  · exact h1.of_suffix h.rd

theorem wpN_mono {α : Type} {m : M T α} {Q Q' : α → T → Prop} {t : T} (h : wpN m Q t)
    (hQ : ∀ a t', Q a t' → Q' a t') : wpN m Q' t := wp_mono h hQ fun _ _ h => h

theorem wpN_handleRst {t : T} (h : NI d0 rd0 t) : wpN handleRst (fun _ t' => NI d0 rd0 t') t := by
  unfold wpN wp handleRst
  rcases hm : t.io.bs.marker with _ | m
  · exact ⟨h.dec.todo _, h.rd, h.marker, h.se, h.jobs⟩
  · cases m
    case rst =>
      exact ⟨(h.dec.todo _).preds (forall₂_map_pred _ _), h.rd, fun m hm => (by cases hm), h.se, h.jobs⟩
    case eoi => exact ⟨h.dec.todo _, h.rd, h.marker, h.se, h.jobs⟩
    all_goals exact h.jobs

theorem wpN_countDown {t : T} (h : NI d0 rd0 t) : wpN countDown (fun _ t' => NI d0 rd0 t') t := by
  have h' : NI d0 rd0 { t with dec := { t.dec with todo := wrappingPred t.dec.todo } } :=
    ⟨h.dec.todo _, h.rd, h.marker, h.se, h.jobs⟩
  by_cases h0 : wrappingPred t.dec.todo = 0
  · have := wpN_handleRst h'
    unfold wpN wp at *
    unfold countDown
    simp only [if_pos h0]
    exact this
  · unfold wpN wp countDown
    simp only [if_neg h0]
    exact h'

/-- A table of the decoder. -/
theorem Steady.dcOk {d : Decoder} (h : Steady d0 d) {i : Nat} {t : HuffmanTable}
    (hi : d.dcTables[i]? = some (some t)) : TableOk t := by
  obtain ⟨c, v, p, ha⟩ := h.tables.dc t (List.mem_of_getElem? hi)
  exact ha.ok

theorem Accepted.ac_some {counts values : List Nat} {prog : Bool} {t : HuffmanTable}
    (h : Accepted counts values false prog t) : t.acLookup ≠ none := by
  obtain ⟨-, -, -, -, hac, -⟩ := table_parts h.len h.table
  rw [hac]
  simp

theorem Steady.acOk {d : Decoder} (h : Steady d0 d) {i : Nat} {t : HuffmanTable}
    (hi : d.acTables[i]? = some (some t)) : TableOk t ∧ t.acLookup ≠ none := by
  obtain ⟨c, v, p, ha⟩ := h.tables.ac t (List.mem_of_getElem? hi)
  exact ⟨ha.ok, ha.ac_some⟩

theorem decodeMcuBlock_no_panic {dc ac : HuffmanTable} (hdc : TableOk dc) (hac : TableOk ac)
    (hl : ac.acLookup ≠ none) {block : List I16} (hb : block.length = 64) (pred : I32) (s : B) (p : Site) :
    (decodeMcuBlock dc ac block pred s).1 ≠ .panic p := by
  have hdcw : wp False False (decodeDc dc pred) (fun _ s' => Same s s') (fun _ s' => Same s s') s :=
    wp_decodeDc (fun _ => hdc) (fun _ _ h => h) (fun _ _ h => h)
  unfold decodeMcuBlock
  rcases hL' : ac.acLookup with _ | L
  · exact absurd hL' hl
  · simp only
    rcases hd : decodeDc dc pred s with ⟨_ | _ | _ | _, s'⟩ <;> simp only [wp, hd] at hdcw
    · rename_i q
      have haw : wp False False (decodeAc ac q block) (fun b' s'' => Same s' s'' ∧ b'.length = 64)
          (fun _ s'' => Same s' s'') s' :=
        wp_decodeAc (fun _ => hac) (fun _ => hl) hb
          (fun _ _ h h' => ⟨h, h'⟩) (fun _ _ h => h)
      simp only
      rcases ha : decodeAc ac q block s' with ⟨_ | _ | _ | _, s''⟩ <;> simp only [wp, ha] at haw
      all_goals simp
    all_goals simp

theorem wpN_decodeBlock {dc ac : HuffmanTable} (hdc : TableOk dc) (hac : TableOk ac)
    (hl : ac.acLookup ≠ none) {pos : Nat} {block : List I16} (hb : block.length = 64) {t : T}
    (h : NI d0 rd0 t) (hp : pos < d0.components.length) :
    wpN (decodeBlock dc ac pos block) (fun b t' => NI d0 rd0 t' ∧ b.length = 64) t := by
  unfold wpN wp decodeBlock
  have hp' : pos < t.dec.components.length := by rw [h.dec.length]; exact hp
  obtain ⟨c, hc⟩ : ∃ c, t.dec.components[pos]? = some c := ⟨_, List.getElem?_eq_getElem hp'⟩
  rw [hc]
  simp only
  have h1 := decodeMcuBlock_cases dc ac block hb c.dcPred t.io
  have h2 := decodeMcuBlock_not_diverge dc ac block hb c.dcPred t.io
  have h3 := @decodeMcuBlock_length dc ac block hb c.dcPred t.io
  have h4 := decodeMcuBlock_no_panic hdc hac hl hb c.dcPred t.io
  rcases hr : decodeMcuBlock dc ac block c.dcPred t.io with ⟨r, p, io⟩
  rw [hr] at h1 h2 h3 h4
  cases r with
  | ok b =>
    simp only at h1 h3 ⊢
    rcases h1 with h1 | ⟨_, h1⟩
    · exact ⟨NI.io (t := { t with dec := _ })
        ⟨h.dec.preds (forall₂_modify_pred _ _ _), h.rd, h.marker, h.se, h.jobs⟩ h1, h3 rfl⟩
    · cases h1
  | err e => exact h.jobs
  | panic p => exact h4 p rfl
  | diverge => exact h2 rfl

/-- The buffers of a strip. -/
def StripBufs (s : Scan) (d0 : Decoder) (temp : List (List I16)) : Prop :=
  temp.length = 3 ∧ ∀ (pos : Nat) (c : Component), d0.components[pos]? = some c →
    pos < d0.options.getOutColorspace.numComponents → ∃ buf : List I16, temp[pos]? = some buf ∧
      buf.length = s.mcuWidth * 64 * c.verticalSample * c.horizontalSample * s.bias

/-- Every data unit of the strip lies inside its buffer. -/
def UnitsFit (s : Scan) (d0 : Decoder) : Prop :=
  ∀ (pos : Nat) (c : Component), d0.components[pos]? = some c → ∀ v j vs hs, v < s.bias →
    j < s.mcuWidth → vs < c.verticalSample → hs < c.horizontalSample →
    blockStart s c v j vs hs + 64 ≤
      s.mcuWidth * 64 * c.verticalSample * c.horizontalSample * s.bias

theorem numComponents_pos (c : ColorSpace) : 0 < c.numComponents := by cases c <;> decide

theorem blockStart_alike {s : Scan} {c c' : Component} (h : Alike c c') (v j vs hs : Nat) :
    blockStart s c' v j vs hs = blockStart s c v j vs hs := by
  unfold Alike at h
  rw [h]
  rfl

theorem wpN_decodeSample {s : Scan} (hu : UnitsFit s d0) {dc ac : HuffmanTable} (hdc : TableOk dc)
    (hac : TableOk ac) (hl : ac.acLookup ≠ none) {v j pos : Nat} {c c' : Component}
    (hc : d0.components[pos]? = some c) (hc' : Alike c c')
    {vh : Nat × Nat} (hv : v < s.bias) (hj : j < s.mcuWidth) (h1 : vh.1 < c.verticalSample)
    (h2 : vh.2 < c.horizontalSample) {temp : List (List I16)} (hb : StripBufs s d0 temp) {t : T}
    (h : NI d0 rd0 t) :
    wpN (decodeSample s v j pos dc ac c' temp vh)
      (fun temp' t' => NI d0 rd0 t' ∧ StripBufs s d0 temp') t := by
  have hp : pos < d0.components.length := (List.getElem?_eq_some_iff.1 hc).1
  unfold decodeSample
  rw [wpN, wp_bind, wp_get]
  refine wp_ite_of (fun hm => ?_) fun _ => ?_
  · rw [h.dec.opts] at hm
    have hpos : pos < d0.options.getOutColorspace.numComponents := by
      have := numComponents_pos d0.options.getOutColorspace
      omega
    obtain ⟨buf, hbuf, hlen⟩ := hb.2 pos c hc hpos
    dsimp only
    rw [wp_bind, wp_unwrap]
    refine ⟨fun b hb' => ?_, fun hn => by rw [hbuf] at hn; cases hn⟩
    rw [hbuf] at hb'
    cases hb'
    have hin := hu pos c hc v j vh.1 vh.2 hv hj h1 h2
    rw [← blockStart_alike hc', ← hlen] at hin
    rw [if_pos hin]
    rw [wp_bind]
    refine wpN_mono (wpN_decodeBlock hdc hac hl
      (by rw [List.length_take, List.length_drop]; omega) h hp) ?_
    rintro b t' ⟨g1, g2⟩
    refine ⟨g1, by rw [List.length_set]; exact hb.1, fun p q hq hpq => ?_⟩
    by_cases e : pos = p
    · subst e
      rw [hc] at hq
      cases hq
      refine ⟨_, List.getElem?_set_self (by rw [hb.1]; exact (by
        have := (List.getElem?_eq_some_iff.1 hbuf).1
        rw [hb.1] at this
        exact this)), ?_⟩
      rw [length_writeAt (by rw [g2]; exact hin)]
      exact hlen
    · rw [List.getElem?_set_ne e]
      exact hb.2 p q hq hpq
  · rw [wp_bind]
    refine wpN_mono (wpN_decodeBlock hdc hac hl List.length_replicate h hp) ?_
    rintro b t' ⟨g1, -⟩
    exact ⟨g1, hb⟩

theorem and3_lt (n : Nat) : n &&& 3 < 4 := by
  have : n &&& 3 ≤ 3 := Nat.and_le_right
  omega

theorem wpN_decodeComponent {s : Scan} (hu : UnitsFit s d0) {v j pos : Nat}
    (hp : pos < d0.components.length) (hv : v < s.bias) (hj : j < s.mcuWidth)
    {temp : List (List I16)} (hb : StripBufs s d0 temp) {t : T} (h : NI d0 rd0 t) :
    wpN (decodeComponent s v j temp pos)
      (fun temp' t' => NI d0 rd0 t' ∧ StripBufs s d0 temp') t := by
  unfold decodeComponent
  rw [wpN, wp_bind, wp_get, wp_bind]
  refine wp_idx_of (by rw [h.dec.length]; exact hp) fun c hc => ?_
  obtain ⟨c0, hc0, ha⟩ := alike_get' h.dec.comps hc
  rw [wp_bind]
  refine wp_idx_of (by rw [h.dec.tables.dcLen]; exact and3_lt _) fun dc hdc => ?_
  rw [wp_bind, wp_okOr]
  refine ⟨fun dc' e => ?_, fun _ => h.jobs⟩
  subst e
  rw [wp_bind]
  refine wp_idx_of (by rw [h.dec.tables.acLen]; exact and3_lt _) fun ac hac => ?_
  rw [wp_bind, wp_okOr]
  refine ⟨fun ac' e => ?_, fun _ => h.jobs⟩
  subst e
  have k1 := h.dec.dcOk hdc
  have k2 := h.dec.acOk hac
  refine M.wp_foldM (fun temp' t' => NI d0 rd0 t' ∧ StripBufs s d0 temp') ⟨h, hb⟩ ?_
  rintro b a t1 hmem ⟨g1, g2⟩
  unfold samplePairs at hmem
  simp only [List.mem_flatMap, List.mem_map, List.mem_range] at hmem
  obtain ⟨x, hx, y, hy, rfl⟩ := hmem
  have e1 : c.verticalSample = c0.verticalSample := by unfold Alike at ha; rw [ha]
  have e2 : c.horizontalSample = c0.horizontalSample := by unfold Alike at ha; rw [ha]
  exact wpN_decodeSample hu k1 k2.1 k2.2 hc0 ha hv hj (by rw [← e1]; exact hx)
    (by rw [← e2]; exact hy) g2 g1

theorem wpN_liftMarker (h3 : Three d0) (hn : NoSof rd0) {m : Marker} {t : T} (h : NI d0 rd0 t)
    (hm : t.io.bs.marker = some m) :
    wpN (liftH (parseMarkerInner m)) (fun _ t' => NI d0 rd0 t') t := by
  have := wp_parseMarkerInner_raw (pn := False) (dv := False) (s := ⟨t.dec, t.io.rd⟩) m
    (fun _ => h.dec.qt) (fun _ => ⟨by
      show t.dec.components.length ≤ 3
      rw [h.dec.length]; exact h3.small, by
      show t.dec.info.components.toNat ≤ t.dec.components.length
      rw [h.dec.length, h.dec.info]; exact h3.count⟩)
  have ha := h.marker m hm
  have n0 : m ≠ .sof 0 := by rintro rfl; exact hn.1 ha
  have n2 : m ≠ .sof 2 := by rintro rfl; exact hn.2 ha
  unfold wpN wp liftH at *
  rcases hr : parseMarkerInner m ⟨t.dec, t.io.rd⟩ with ⟨_ | _ | _ | _, s⟩ <;> rw [hr] at this
  · simp only at this ⊢
    obtain ⟨g1, g2, g3⟩ := this
    exact ⟨Steady.effect (s := ⟨t.dec, t.io.rd⟩) h.dec n0 n2 g3, g1.trans h.rd, h.marker, h.se, h.jobs⟩
  · exact h.jobs
  · exact this
  · exact this

theorem wpN_decodeMcu {s : Scan} (h3 : Three d0) (hn : NoSof rd0) (hu : UnitsFit s d0) {v j : Nat}
    (hv : v < s.bias) (hj : j < s.mcuWidth) {l : List Nat}
    (hl : ∀ p ∈ l, p < d0.components.length)
    {temp : List (List I16)} (hb : StripBufs s d0 temp) {t : T} (h : NI d0 rd0 t) :
    wpN (decodeMcu s v j l temp) (fun temp' t' => NI d0 rd0 t' ∧ StripBufs s d0 temp') t := by
  induction l generalizing temp t with
  | nil => exact ⟨h, hb⟩
  | cons pos l ih =>
    unfold decodeMcu
    rw [wpN, wp_bind]
    refine wpN_mono (wpN_decodeComponent hu (hl pos (by simp)) hv hj hb h) ?_
    rintro temp1 t1 ⟨h1, b1⟩
    rw [wp_bind]
    refine wpN_mono (wpN_countDown h1) ?_
    rintro _ t2 h2
    rw [wp_bind, wp_get]
    have go : ∀ t3, NI d0 rd0 t3 → wpN (decodeMcu s v j l temp1)
        (fun temp' t' => NI d0 rd0 t' ∧ StripBufs s d0 temp') t3 :=
      fun t3 h3 => ih (fun p hp => hl p (by simp [hp])) b1 h3
    rcases hm : t2.io.bs.marker with _ | m
    · exact go t2 h2
    · cases m
      case eoi => exact ⟨h2, b1⟩
      case rst => exact go t2 h2
      all_goals
        dsimp only
        rw [wp_bind]
        exact wpN_mono (wpN_liftMarker h3 hn h2 hm) fun _ t3 g => go t3 g

theorem wpN_decodeStrip {s : Scan} (h3 : Three d0) (hn : NoSof rd0) (hu : UnitsFit s d0)
    (hc : d0.inputColorspace.numComponents ≤ d0.components.length)
    {temp : List (List I16)} (hb : StripBufs s d0 temp) {t : T} (h : NI d0 rd0 t) :
    wpN (decodeStrip s temp) (fun temp' t' => NI d0 rd0 t' ∧ StripBufs s d0 temp') t := by
  refine M.wp_foldM (fun temp' t' => NI d0 rd0 t' ∧ StripBufs s d0 temp') ⟨h, hb⟩ ?_
  rintro b ⟨v, j⟩ t1 hmem ⟨g1, g2⟩
  unfold samplePairs at hmem
  simp only [List.mem_flatMap, List.mem_map, List.mem_range, Prod.mk.injEq] at hmem
  obtain ⟨x, hx, y, hy, rfl, rfl⟩ := hmem
  dsimp only
  rw [wp_bind, wp_get]
  refine wpN_decodeMcu h3 hn hu hx hy (fun p hp => ?_) g2 g1
  rw [List.mem_range, g1.dec.inCs] at hp
  omega

theorem allocTemp_bufs {s : Scan} {d : Decoder} (h3 : Three d0) (h : Steady d0 d) :
    ∃ temp, allocTemp s d = .ok temp ∧ StripBufs s d0 temp := by
  have hal : ∃ temp, allocTemp s d = .ok temp ∧ temp.length = 3 := by
    unfold allocTemp
    dsimp only
    rw [if_neg (by
      rintro ⟨-, hx⟩
      have := h3.small
      rw [h.length] at hx
      omega)]
    exact ⟨_, rfl, by simp⟩
  obtain ⟨temp, ha, hlen⟩ := hal
  refine ⟨temp, ha, hlen, fun pos c hc hp => ?_⟩
  obtain ⟨c', hc', hal⟩ := alike_get h.comps hc
  have hpl : pos < 3 := by
    have h1 := (List.getElem?_eq_some_iff.1 hc).1
    have := h3.small
    omega
  unfold allocTemp at ha
  dsimp only at ha
  split at ha
  · cases ha
  · cases ha
    rw [List.getElem?_map, List.getElem?_range hpl]
    simp only [Option.map_some, hc', h.opts]
    rw [if_pos (by omega)]
    refine ⟨_, rfl, ?_⟩
    rw [List.length_replicate]
    unfold Alike at hal
    rw [hal]

/-- A job of the strip does not panic, whatever the coefficients are. -/
def StripJobs (s : Scan) (d0 : Decoder) : Prop :=
  ∀ temp, StripBufs s d0 temp → (postProcess s.idct s.color s.comps s.inCs s.outCs s.width temp
    (List.replicate s.chunk 0)).isOk = true

/-- A strip, and the number of jobs. -/
theorem wpN_strips {s : Scan} (h3 : Three d0) (hn : NoSof rd0) (hu : UnitsFit s d0)
    (hc : d0.inputColorspace.numComponents ≤ d0.components.length) (hj : StripJobs s d0) (n : Nat)
    {t : T} (h : NI d0 rd0 t) (hroom : t.jobs.length + n ≤ s.outLen / s.chunk) :
    wpN (strips s n) (fun _ t' => NI d0 rd0 t') t := by
  induction n generalizing t with
  | zero => exact h
  | succ n ih =>
    unfold strips
    rw [wpN, wp_bind]
    unfold strip
    rw [wp_bind, wp_get, wp_bind]
    obtain ⟨temp, ha, hb⟩ := allocTemp_bufs (s := s) h3 h.dec
    rw [ha, wp_ofOut]
    refine ⟨fun a e => ?_, fun _ e => (by cases e), fun _ e => (by cases e), fun e => (by cases e)⟩
    cases e
    rw [wp_bind]
    -- the number of jobs does not change within a strip
    have hjobs := wpT_decodeStrip (I := fun d => d.specEnd ≤ 63) (rd0 := rd0)
      ⟨id, fun {m s s'} h he => by
        unfold Effect at he
        split at he
        · obtain ⟨x, y, h1, h2, w1, w2, n, cs, cs', he⟩ := he
          rw [he.dec]; exact h
        · obtain ⟨x, y, h1, h2, w1, w2, n, cs, cs', he⟩ := he
          rw [he.dec]; exact h
        · obtain ⟨x, y, n, ss, se, a, ps, he⟩ := he
          rw [he.dec]; exact and63_le _
        · rw [he.dec]; exact h, fun _ h => h, fun _ h => h⟩ s temp
      (t := t) ⟨h.dec.spec.2, h.rd, h.se⟩
    have hst := wpN_decodeStrip h3 hn hu hc hb h
    unfold wpT wp at hjobs
    unfold wpN wp at hst
    unfold wp
    rcases hr : decodeStrip s temp t with ⟨temp' | _ | _ | _, t1⟩ <;> rw [hr] at hjobs hst
    · simp only at hjobs hst ⊢
      have hlt : t1.jobs.length < s.outLen / s.chunk := by rw [hjobs.2]; omega
      have e : submit s temp' t1 = (.ok (), { t1 with jobs := t1.jobs ++
        [postProcess s.idct s.color s.comps s.inCs s.outCs s.width temp'
          (List.replicate s.chunk 0)] }) := by
        unfold submit
        rw [if_pos hlt]
      rw [e]
      simp only
      refine ih ⟨hst.1.dec, hst.1.rd, hst.1.marker, hst.1.se, ?_⟩ ?_
      · intro j hjm
        rcases List.mem_append.1 hjm with hm | hm
        · exact hst.1.jobs j hm
        · rw [List.mem_singleton] at hm
          subst hm
          exact hj temp' hst.2
      · dsimp only
        rw [List.length_append, hjobs.2]
        simp
        omega
    · exact hst
    · exact hst
    · exact hst
end

end Zune
