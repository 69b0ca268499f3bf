import Verif.Lemmas.Segment
import Verif.Lemmas.Relax
import Verif.Props.Decode
import Verif.Props.Zigzag
/-! # Properties C09, C14, C50: header segments -/

namespace Zune
open Zune.Spec

/-! ### From the headers to the whole file -/

/-- Two buffers with which the headers succeed in the same way. -/
def SameHeaders (d : Decoder) (a b : List UInt8) : Prop :=
  ∀ d' rd', decodeHeaders ⟨d, a⟩ = (.ok (), ⟨d', rd'⟩) ↔ decodeHeaders ⟨d, b⟩ = (.ok (), ⟨d', rd'⟩)

theorem SameHeaders.readHeaders {d : Decoder} {a b : List UInt8} (h : SameHeaders d a b)
    (d' : Decoder) : d.readHeaders a = (.ok (), d') ↔ d.readHeaders b = (.ok (), d') := by
  have key : ∀ {a b}, SameHeaders d a b → d.readHeaders a = (.ok (), d') →
      d.readHeaders b = (.ok (), d') := by
    intro a b h e
    unfold Decoder.readHeaders at *
    rcases hm : decodeHeaders ⟨d, a⟩ with ⟨x, s⟩
    rw [hm] at e
    cases e
    rw [(h _ _).1 hm]
  exact ⟨key h, key fun d' rd' => (h d' rd').symm⟩

theorem SameHeaders.decodeBuffer {d : Decoder} {a b : List UInt8} (h : SameHeaders d a b)
    (v : List UInt8) (d' : Decoder) :
    d.decodeBuffer a = (.ok v, d') ↔ d.decodeBuffer b = (.ok v, d') := by
  have key : ∀ {a b}, SameHeaders d a b → d.decodeBuffer a = (.ok v, d') →
      d.decodeBuffer b = (.ok v, d') := by
    intro a b h e
    unfold Decoder.decodeBuffer at *
    rcases hm : decodeInternal ⟨d, a⟩ with ⟨x, s⟩
    rw [hm] at e
    cases e
    have hm' : decodeInternal ⟨d, b⟩ = (.ok v, s) := by
      unfold decodeInternal at *
      obtain ⟨_, s1, h1, h2⟩ := M.bind_ok_inv hm
      rw [M.bind_ok ((h _ _).1 h1)]
      exact h2
    rw [hm']
  exact ⟨key h, key fun d' rd' => (h d' rd').symm⟩

/-! ### C09 -/

/-- Marker codes the decoder interprets: SOF0, SOF2, DHT, DAC, EOI, SOS, DQT, DNL and DRI. -/
def Spec.interpreted : List UInt8 := [0xC0, 0xC2, 0xC4, 0xCC, 0xD9, 0xDA, 0xDB, 0xDC, 0xDD]

/-- A segment that only carries data for others: APPn, COM or a marker code unknown to the decoder,
with a payload that fits. -/
structure Spec.Transparent (x : Segment) : Prop where
  len : x.payload.length + 2 < 65536
  ff : x.marker ≠ 0xFF
  unknown : x.marker ∉ interpreted

/-- All APPn segments and comments are transparent. -/
theorem Spec.transparent_app_com (m : UInt8) (p : List UInt8) (hp : p.length + 2 < 65536)
    (hm : 0xE0 ≤ m ∧ m ≤ 0xEF ∨ m = 0xFE) : Transparent ⟨m, p⟩ := by
  have key : ∀ n : Fin 256, (0xE0 ≤ UInt8.ofNat n ∧ UInt8.ofNat n ≤ 0xEF ∨ UInt8.ofNat n = 0xFE) →
      UInt8.ofNat n ≠ 0xFF ∧ UInt8.ofNat n ∉ interpreted := by decide +kernel
  have h := key ⟨m.toNat, m.toNat_lt⟩
  simp only [UInt8.ofNat_toNat] at h
  exact ⟨hp, (h hm).1, (h hm).2⟩

theorem segStep_unknown {m : UInt8} (h : m ∉ interpreted) : segStep m = skipSegment := by
  have key : ∀ n : Fin 256, UInt8.ofNat n ∉ interpreted →
      (match Marker.fromU8 (UInt8.ofNat n) with
        | none | some (.app _) | some .com | some (.rst _) | some .soi => true
        | _ => false) = true := by decide +kernel
  have hk := key ⟨m.toNat, m.toNat_lt⟩
  simp only [UInt8.ofNat_toNat] at hk
  have hk := hk h
  unfold segStep
  split at hk <;> first | (cases hk; done) | (rename_i e; simp only [e]; done) | (rename_i e; simp only [e]; rfl)

theorem Spec.Transparent.header {x : Segment} (h : Transparent x) : x.Header :=
  ⟨h.len, h.ff, fun e => h.unknown (by rw [e]; decide)⟩

theorem Spec.Transparent.segOk {x : Segment} (h : Transparent x) (d d' : Decoder) :
    SegOk x.marker x.payload d d' ↔ d' = d := by
  unfold SegOk
  have := skipSegment_complete h.len d []
  rw [List.append_nil] at this
  rw [segStep_unknown h.unknown, this]
  simp only [Prod.mk.injEq, true_and, H.mk.injEq, and_true]
  exact eq_comm

/-- **C09.** A file that starts with SOI and any complete segments other than SOS, followed by
anything. Inserting a transparent segment behind these segments changes neither whether the file is
decoded nor the bytes, the header information or the state of the decoder. In strict mode the file
must have at least one segment in front of the insertion. -/
theorem c09_transparent (d : Decoder) (segs : List Segment) (hs : ∀ s ∈ segs, s.Header)
    (x : Segment) (hx : Transparent x) (rest : List UInt8)
    (hstrict : d.options.getStrictMode = false ∨ segs ≠ []) :
    (∀ v d', d.decodeBuffer (0xFF :: 0xD8 :: (segs.flatMap Segment.bytes ++ x.bytes ++ rest)) =
        (.ok v, d') ↔
      d.decodeBuffer (0xFF :: 0xD8 :: (segs.flatMap Segment.bytes ++ rest)) = (.ok v, d')) ∧
    (∀ d', d.readHeaders (0xFF :: 0xD8 :: (segs.flatMap Segment.bytes ++ x.bytes ++ rest)) =
        (.ok (), d') ↔
      d.readHeaders (0xFF :: 0xD8 :: (segs.flatMap Segment.bytes ++ rest)) = (.ok (), d')) := by
  have same : SameHeaders d (0xFF :: 0xD8 :: (segs.flatMap Segment.bytes ++ x.bytes ++ rest))
      (0xFF :: 0xD8 :: (segs.flatMap Segment.bytes ++ rest)) := by
    intro d' rd'
    have e : segs.flatMap Segment.bytes ++ x.bytes ++ rest =
        (segs ++ [x]).flatMap Segment.bytes ++ rest := by
      simp
    have hs' : ∀ s ∈ segs ++ [x], s.Header := by
      intro s h
      rcases List.mem_append.1 h with h | h
      · exact hs s h
      · rw [List.mem_singleton.1 h]; exact hx.header
    rw [e, decodeHeaders_segments hs', decodeHeaders_segments hs, if_neg (by simp)]
    have e2 : ∀ d1, SegsOk (segs ++ [x]) d d1 ↔ SegsOk segs d d1 := by
      intro d1
      rw [SegsOk.append]
      constructor
      · rintro ⟨d2, h2, d3, h3, rfl⟩
        rw [hx.segOk] at h3
        subst h3
        exact h2
      · intro h
        exact ⟨d1, h, d1, (hx.segOk _ _).2 rfl, rfl⟩
    simp only [e2]
    refine exists_congr fun d1 => and_congr_right fun h1 => ?_
    by_cases hn : segs = []
    · subst hn
      have : d1 = d := h1
      subst this
      rw [if_pos rfl]
      exact HL.count (hstrict.resolve_right (by simp))
    · rw [if_neg hn]
  exact ⟨same.decodeBuffer, same.readHeaders⟩

/-- The DQT segment of the file used as an example. -/
def Spec.tinyDqt : Segment := ⟨0xDB, 0 :: List.replicate 64 1⟩

/-- The hypotheses are met and the file decodes: a comment and an APP1 segment. -/
example : (∀ s ∈ [tinyDqt], s.Header) ∧ Transparent ⟨0xFE, [0xFF, 0xC0]⟩ ∧
    Transparent ⟨0xE1, List.replicate 300 0xFF⟩ ∧
    tinyFile = 0xFF :: 0xD8 :: ([tinyDqt].flatMap Segment.bytes ++ tinyFile.drop 71) ∧
    ((Decoder.new ⟨false, false⟩).decodeBuffer (0xFF :: 0xD8 :: ([tinyDqt].flatMap Segment.bytes ++
      (Segment.bytes ⟨0xFE, [0xFF, 0xC0]⟩) ++ tinyFile.drop 71))).1
      = .ok (List.replicate 64 128) := by
  refine ⟨?_, transparent_app_com _ _ (by decide) (by decide),
    transparent_app_com _ _ (by rw [List.length_replicate]; decide) (by decide), by decide +kernel, by decide +kernel⟩
  intro s h
  rw [List.mem_singleton.1 h]
  exact ⟨by decide, by decide, by decide⟩

/-! ### C14 -/

/-- Replace the Huffman tables. -/
abbrev setTables (dc ac : List (Option HuffmanTable)) (d : Decoder) : Decoder :=
  { d with dcTables := dc, acTables := ac }

/-- Everything from `e` but the Huffman tables and the flag their construction depends on. -/
abbrev graft (e d : Decoder) : Decoder :=
  { e with dcTables := d.dcTables, acTables := d.acTables, isProgressive := d.isProgressive }

section
variable {dc ac : List (Option HuffmanTable)} {e : Decoder}

theorem sof_readComponents : ∀ n, Keep (onDec (setTables dc ac)) (readComponents n) (readComponents n)
  | 0 => by unfold Zune.readComponents; keep
  | n + 1 => by
    have ih := sof_readComponents n
    unfold Zune.readComponents
    refine Keep.bind (Keep.readExact _ _) fun t => ?_
    split <;> keep

theorem sof_setupComponents : ∀ cs,
    Keep (onDec (setTables dc ac)) (setupComponents cs) (setupComponents cs)
  | [] => by unfold Zune.setupComponents; keep
  | c :: cs => by
    have ih := sof_setupComponents cs
    unfold Zune.setupComponents
    keep

theorem sof_tables (sof : SofMarker) :
    Keep (onDec (setTables dc ac)) (parseStartOfFrame sof) (parseStartOfFrame sof) := by
  have h1 := fun n => sof_readComponents (dc := dc) (ac := ac) n
  have h2 := fun n => sof_setupComponents (dc := dc) (ac := ac) n
  unfold Zune.parseStartOfFrame
  keep
  · exact h1 _
  · exact h2 _

theorem dht_loop : ∀ fuel len, Keep (onDec (graft e)) (parseHuffmanLoop fuel len)
    (parseHuffmanLoop fuel len)
  | 0, len => by unfold Zune.parseHuffmanLoop; keep
  | fuel + 1, len => by
    have ih := fun l => dht_loop fuel l
    unfold Zune.parseHuffmanLoop
    keep
    all_goals exact ih _

theorem dht_rest : Keep (onDec (graft e)) parseHuffman parseHuffman := by
  unfold Zune.parseHuffman
  have ih := fun a b => dht_loop (e := e) a b
  keep
  all_goals exact ih _ _
end

theorem dht_frame {s s' : H} (h : parseHuffman s = (.ok (), s')) :
    s'.dec = { s.dec with dcTables := s'.dec.dcTables, acTables := s'.dec.acTables } := by
  have hw := wp_parseHuffman (pn := True) (dv := False) (s := s)
  have hq := M.wp_ok hw h
  exact hq.2.1

theorem sof_frame {sof : SofMarker} {s s' : H} (h : parseStartOfFrame sof s = (.ok (), s')) :
    s'.dec.dcTables = s.dec.dcTables ∧ s'.dec.acTables = s.dec.acTables ∧
      s'.dec.isProgressive = s.dec.isProgressive := by
  have hw := wp_parseStartOfFrame (pn := True) (dv := False) (s := s) sof (fun h => absurd trivial h)
  have hq := M.wp_ok hw h
  obtain ⟨x, y, h1, h2, w1, w2, n, cs, cs', hok⟩ := hq
  have := hok.dec
  rw [this]
  unfold sofDecoder frameDims sofStart
  dsimp only
  exact ⟨rfl, rfl, rfl⟩

/-- The two segments, one after the other. -/
theorem dht_sof_commute (p q : List UInt8) (d d2 : Decoder) :
    SegsOk [⟨0xC4, p⟩, ⟨0xC0, q⟩] d d2 ↔ SegsOk [⟨0xC0, q⟩, ⟨0xC4, p⟩] d d2 := by
  have hd : segStep 0xC4 = parseHuffman := rfl
  have hs : segStep 0xC0 = parseStartOfFrame .baselineDct := rfl
  simp only [SegsOk, SegOk, hd, hs]
  constructor
  · rintro ⟨d1, h1, d2', h2, rfl⟩
    have f1 := dht_frame h1
    have f2 := sof_frame h2
    dsimp only at f1 f2
    have k1 := sof_tables (dc := d.dcTables) (ac := d.acTables) _ _ _ _ h2
    have k2 := dht_rest (e := setTables d.dcTables d.acTables d2) _ _ _ h1
    have e1 : setTables d.dcTables d.acTables d1 = d := by rw [f1]
    have p1 : d1.isProgressive = d.isProgressive := by rw [f1]
    have e2 : graft (setTables d.dcTables d.acTables d2) d =
        setTables d.dcTables d.acTables d2 := by
      unfold graft
      rw [← p1, ← f2.2.2]
    have e3 : graft (setTables d.dcTables d.acTables d2) d1 = d2 := by
      unfold graft
      rw [← f2.1, ← f2.2.1, ← f2.2.2]
    refine ⟨setTables d.dcTables d.acTables d2, ?_, d2, ?_, rfl⟩
    · rw [show (onDec (setTables d.dcTables d.acTables) ⟨d1, lenBytes q.length ++ q⟩) =
        H.mk d (lenBytes q.length ++ q) by unfold onDec; rw [e1]] at k1
      exact k1
    · rw [show (onDec (graft (setTables d.dcTables d.acTables d2)) ⟨d, lenBytes p.length ++ p⟩) =
        H.mk (setTables d.dcTables d.acTables d2) (lenBytes p.length ++ p) by unfold onDec; rw [e2],
        show (onDec (graft (setTables d.dcTables d.acTables d2)) ⟨d1, []⟩) = H.mk d2 [] by
          unfold onDec; rw [e3]] at k2
      exact k2
  · rintro ⟨d1, h1, d2', h2, rfl⟩
    have f1 := sof_frame h1
    have f2 := dht_frame h2
    dsimp only at f1 f2
    have k1 := dht_rest (e := d) _ _ _ h2
    have k2 := sof_tables (dc := d2.dcTables) (ac := d2.acTables) _ _ _ _ h1
    have e1 : graft d d1 = d := by
      unfold graft
      rw [f1.1, f1.2.1, f1.2.2]
    have p2 : d2.isProgressive = d.isProgressive := by rw [f2]; exact f1.2.2
    have e2 : graft d d2 = setTables d2.dcTables d2.acTables d := by
      unfold graft
      rw [p2]
    have e3 : setTables d2.dcTables d2.acTables d1 = d2 := f2.symm
    refine ⟨graft d d2, ?_, d2, ?_, rfl⟩
    · rw [show (onDec (graft d) ⟨d1, lenBytes p.length ++ p⟩) = H.mk d (lenBytes p.length ++ p) by
        unfold onDec; rw [e1]] at k1
      exact k1
    · rw [e2]
      rw [show (onDec (setTables d2.dcTables d2.acTables) ⟨d1, []⟩) = H.mk d2 [] by
        unfold onDec; rw [e3]] at k2
      exact k2

/-- **C14**, for baseline files: in any file of complete segments a DHT segment and an adjacent SOF0
segment can be exchanged; the decoder accepts the one if and only if it accepts the other, with the
same bytes and the same state. Missing: progressive frames, for which it is false (`c14_false`). -/
theorem c14_order_partial (d : Decoder) (segs : List Segment) (hs : ∀ s ∈ segs, s.Header)
    (p q : List UInt8) (hp : p.length + 2 < 65536) (hq : q.length + 2 < 65536) (rest : List UInt8) :
    (∀ v d', d.decodeBuffer (0xFF :: 0xD8 :: (segs.flatMap Segment.bytes ++
        (Segment.bytes ⟨0xC4, p⟩ ++ Segment.bytes ⟨0xC0, q⟩) ++ rest)) = (.ok v, d') ↔
      d.decodeBuffer (0xFF :: 0xD8 :: (segs.flatMap Segment.bytes ++
        (Segment.bytes ⟨0xC0, q⟩ ++ Segment.bytes ⟨0xC4, p⟩) ++ rest)) = (.ok v, d')) ∧
    (∀ d', d.readHeaders (0xFF :: 0xD8 :: (segs.flatMap Segment.bytes ++
        (Segment.bytes ⟨0xC4, p⟩ ++ Segment.bytes ⟨0xC0, q⟩) ++ rest)) = (.ok (), d') ↔
      d.readHeaders (0xFF :: 0xD8 :: (segs.flatMap Segment.bytes ++
        (Segment.bytes ⟨0xC0, q⟩ ++ Segment.bytes ⟨0xC4, p⟩) ++ rest)) = (.ok (), d')) := by
  have same : SameHeaders d
      (0xFF :: 0xD8 :: (segs.flatMap Segment.bytes ++
        (Segment.bytes ⟨0xC4, p⟩ ++ Segment.bytes ⟨0xC0, q⟩) ++ rest))
      (0xFF :: 0xD8 :: (segs.flatMap Segment.bytes ++
        (Segment.bytes ⟨0xC0, q⟩ ++ Segment.bytes ⟨0xC4, p⟩) ++ rest)) := by
    intro d' rd'
    have e : ∀ a b : Segment, segs.flatMap Segment.bytes ++ (a.bytes ++ b.bytes) ++ rest =
        (segs ++ [a, b]).flatMap Segment.bytes ++ rest := by
      intro a b; simp
    have hp' : Segment.Header ⟨0xC4, p⟩ := ⟨hp, (by decide : (0xC4 : UInt8) ≠ 0xFF), (by decide : (0xC4 : UInt8) ≠ 0xDA)⟩
    have hq' : Segment.Header ⟨0xC0, q⟩ := ⟨hq, (by decide : (0xC0 : UInt8) ≠ 0xFF), (by decide : (0xC0 : UInt8) ≠ 0xDA)⟩
    have hs' : ∀ a b : Segment, a.Header → b.Header → ∀ s ∈ segs ++ [a, b], s.Header := by
      intro a b ha hb s h
      simp only [List.mem_append, List.mem_cons, List.not_mem_nil, or_false] at h
      rcases h with h | rfl | rfl
      · exact hs s h
      · exact ha
      · exact hb
    rw [e, e, decodeHeaders_segments (hs' _ _ hp' hq'), decodeHeaders_segments (hs' _ _ hq' hp'),
      if_neg (by simp), if_neg (by simp)]
    simp only [SegsOk.append, dht_sof_commute]
  exact ⟨same.decodeBuffer, same.readHeaders⟩

/-- The frame header and the first table of the example file exchanged. -/
example : ∃ p q rest, tinyFile = 0xFF :: 0xD8 :: ([tinyDqt].flatMap Segment.bytes ++
      (Segment.bytes ⟨0xC0, q⟩ ++ Segment.bytes ⟨0xC4, p⟩) ++ rest) ∧
    ((Decoder.new ⟨false, false⟩).decodeBuffer (0xFF :: 0xD8 :: ([tinyDqt].flatMap Segment.bytes ++
      (Segment.bytes ⟨0xC4, p⟩ ++ Segment.bytes ⟨0xC0, q⟩) ++ rest))).1
        = .ok (List.replicate 64 128) :=
  ⟨[0x00, 1] ++ List.replicate 15 0 ++ [0], [8, 0, 8, 0, 8, 1, 1, 0x11, 0], tinyFile.drop 106,
    by decide +kernel, by decide +kernel⟩

/-- A progressive file of 8 x 8 samples in two scans; the AC table has the codes `0` for a run of
two end-of-bands and `10` for fifteen zeros and a coefficient of one bit. -/
def Spec.orderFile (dhtFirst : Bool) : List UInt8 :=
  let sof := [0xFF, 0xC2, 0x00, 0x0B, 8, 0, 8, 0, 8, 1, 1, 0x11, 0]
  let dht := [0xFF, 0xC4, 0x00, 0x15, 0x10, 1, 1] ++ List.replicate 14 0 ++ [0x10, 0xF1]
  [0xFF, 0xD8] ++
  [0xFF, 0xDB, 0x00, 0x43, 0x00] ++ List.replicate 64 255 ++
  (if dhtFirst then dht ++ sof else sof ++ dht) ++
  ([0xFF, 0xC4, 0x00, 0x14, 0x00, 1] ++ List.replicate 15 0 ++ [0]) ++
  [0xFF, 0xDA, 0x00, 0x08, 1, 1, 0x00, 0, 0, 0] ++ [0x7F] ++
  [0xFF, 0xDA, 0x00, 0x08, 1, 1, 0x00, 1, 63, 0] ++ [0x50, 0xFF, 0xD9]

/-- The claim is false for progressive files: both orders are accepted but the images differ. -/
theorem c14_false : ∃ v w : List UInt8, v ≠ w ∧
    ((Decoder.new ⟨false, false⟩).decodeBuffer (orderFile false)).1 = .ok v ∧
    ((Decoder.new ⟨false, false⟩).decodeBuffer (orderFile true)).1 = .ok w := by
  refine ⟨(((Decoder.new ⟨false, false⟩).decodeBuffer (orderFile false)).1.toOption).getD [],
    (((Decoder.new ⟨false, false⟩).decodeBuffer (orderFile true)).1.toOption).getD [], ?_, ?_, ?_⟩
  all_goals decide +kernel

/-! ### C50 -/

/-- A table of a DQT segment: destination and 64 values of one byte, in file order. -/
structure Spec.DqtTable where
  dest : Nat
  values : List UInt8

/-- Well-formed (T.81 B.2.4.1 with `Pq = 0`). -/
structure Spec.DqtTable.Valid (t : DqtTable) : Prop where
  dest : t.dest < 4
  len : t.values.length = 64

/-- The bytes of the table. -/
def Spec.DqtTable.bytes (t : DqtTable) : List UInt8 := UInt8.ofNat t.dest :: t.values

/-- The last table given for destination `k`. -/
def Spec.lastFor (k : Nat) (ts : List DqtTable) : Option DqtTable :=
  (ts.reverse.find? fun t => t.dest == k)

/-- What a DQT segment does: only the quantisation tables change; a destination holds the last table
given for it, in natural order, and keeps its contents if none was given. -/
structure Spec.DqtResult (d d' : Decoder) (ts : List DqtTable) : Prop where
  frame : d' = { d with qtTables := d'.qtTables }
  four : d'.qtTables.length = 4
  keep : ∀ k, lastFor k ts = none → d'.qtTables[k]? = d.qtTables[k]?
  last : ∀ k t, lastFor k ts = some t → ∃ tab : List Nat, d'.qtTables[k]? = some (some tab) ∧
    tab.length = 64 ∧ ∀ i z : Nat, zigzag[i]? = some z → tab[z]? = t.values[i]?.map UInt8.toNat

/-- The tables stored one after the other. -/
def store (qt : List (Option (List Nat))) (ts : List DqtTable) : List (Option (List Nat)) :=
  ts.foldl (fun qt t => qt.set t.dest (some (unZigZag (t.values.map (·.toNat))))) qt

theorem store_length (qt : List (Option (List Nat))) (ts : List DqtTable) :
    (store qt ts).length = qt.length := by
  unfold store
  induction ts generalizing qt with
  | nil => rfl
  | cons t ts ih => rw [List.foldl_cons, ih, List.length_set]

theorem store_get (qt : List (Option (List Nat))) (hq : qt.length = 4) (ts : List DqtTable)
    (hv : ∀ t ∈ ts, t.Valid) (k : Nat) :
    (store qt ts)[k]? = match lastFor k ts with
      | none => qt[k]?
      | some t => some (some (unZigZag (t.values.map (·.toNat)))) := by
  induction ts using List.reverseRecOn with
  | nil => rfl
  | append_singleton ts t ih =>
    have ih := ih (fun t ht => hv t (by simp [ht]))
    have e1 : store qt (ts ++ [t]) =
        (store qt ts).set t.dest (some (unZigZag (t.values.map (·.toNat)))) := by
      unfold store; simp
    have e2 : lastFor k (ts ++ [t]) = if t.dest == k then some t else lastFor k ts := by
      unfold lastFor
      rw [List.reverse_append, List.reverse_singleton, List.singleton_append, List.find?_cons]
      cases t.dest == k <;> rfl
    have hl : t.dest < (store qt ts).length := by
      rw [store_length, hq]; exact (hv t (by simp)).dest
    rw [e1, e2, List.getElem?_set]
    by_cases h : t.dest = k
    · subst h
      simp only [if_true, if_pos hl, beq_self_eq_true]
    · rw [if_neg h, if_neg (by simpa using h), ih]

theorem dqt_result (d : Decoder) (hd : d.qtTables.length = 4) (ts : List DqtTable)
    (hv : ∀ t ∈ ts, t.Valid) : DqtResult d { d with qtTables := store d.qtTables ts } ts := by
  refine ⟨rfl, by rw [store_length, hd], fun k hk => ?_, fun k t hk => ?_⟩
  · show (store d.qtTables ts)[k]? = _
    rw [store_get _ hd _ hv, hk]
  · have ht : t ∈ ts := by
      unfold lastFor at hk
      exact List.mem_reverse.1 (List.mem_of_find?_eq_some hk)
    obtain ⟨h1, h2⟩ := c49_quant_table (t.values.map (·.toNat))
      (by rw [List.length_map]; exact (hv t ht).len)
    refine ⟨_, ?_, h1, fun i z hz => ?_⟩
    · show (store d.qtTables ts)[k]? = _
      rw [store_get _ hd _ hv, hk]
    · rw [h2 i z hz, List.getElem?_map]

theorem dqt_info {b : UInt8} (h1 : (b >>> 4).toNat = 0) (h2 : ¬ (b &&& 0x0f).toNat ≥ 4) :
    ∃ k, k < 4 ∧ b = UInt8.ofNat k := by
  refine ⟨(b &&& 0x0f).toNat, by omega, ?_⟩
  have := u8_nibbles b
  rw [h1] at this
  simpa using this.symm

theorem dqtLoop_inv : ∀ (fuel len : Nat) (d d' : Decoder) (rd rd' : List UInt8), len ≤ fuel →
    parseDqtLoop fuel len ⟨d, rd⟩ = (.ok (), ⟨d', rd'⟩) →
    ∃ ts : List DqtTable, (∀ t ∈ ts, t.Valid) ∧ len = 65 * ts.length ∧
      rd = ts.flatMap DqtTable.bytes ++ rd' ∧ d' = { d with qtTables := store d.qtTables ts }
  | 0, len, d, d', rd, rd', hl, h => by
    have : len = 0 := by omega
    subst this
    unfold parseDqtLoop at h
    rw [if_neg (by omega)] at h
    cases h
    exact ⟨[], by simp, rfl, rfl, rfl⟩
  | fuel + 1, len, d, d', rd, rd', hl, h => by
    unfold parseDqtLoop at h
    by_cases hpos : len > 0
    · rw [if_pos hpos] at h
      obtain ⟨b, s1, h1, h⟩ := M.bind_ok_inv h
      cases rd with
      | nil => cases h1
      | cons b' r =>
      cases h1
      dsimp only at h
      by_cases hsz : 64 * ((b >>> 4).toNat + 1) + 1 > len
      · rw [if_pos hsz] at h; cases h
      rw [if_neg hsz] at h
      by_cases hp : (b >>> 4).toNat = 0
      · rw [if_pos hp] at h
        obtain ⟨a, s2, h2, h⟩ := M.bind_ok_inv h
        unfold readExact at h2
        dsimp only at h2
        by_cases hr : r.length < 64
        · rw [if_pos hr] at h2; cases h2
        rw [if_neg hr] at h2
        cases h2
        by_cases hq : (b &&& 0x0f).toNat ≥ MAX_COMPONENTS
        · rw [if_pos hq] at h; cases h
        rw [if_neg hq] at h
        obtain ⟨k, hk, rfl⟩ := dqt_info hp hq
        have hk' : (UInt8.ofNat k &&& 0x0f).toNat = k := by
          have : k = 0 ∨ k = 1 ∨ k = 2 ∨ k = 3 := by omega
          rcases this with rfl | rfl | rfl | rfl <;> rfl
        rw [hk'] at h
        obtain ⟨_, s3, h3, h⟩ := M.bind_ok_inv h
        cases h3
        obtain ⟨ts, hv, e1, e2, e3⟩ := dqtLoop_inv fuel _ _ _ _ _ (by omega) h
        refine ⟨⟨k, r.take 64⟩ :: ts, ?_, ?_, ?_, ?_⟩
        · intro t ht
          rcases List.mem_cons.1 ht with rfl | ht
          · exact ⟨hk, by rw [List.length_take]; omega⟩
          · exact hv t ht
        · rw [hp] at e1 hsz
          rw [List.length_cons]
          omega
        · rw [List.flatMap_cons, DqtTable.bytes]
          simp only [List.cons_append, List.append_assoc]
          rw [← e2, List.take_append_drop]
        · rw [e3]; rfl
      · rw [if_neg hp] at h; cases h
    · rw [if_neg hpos] at h
      cases h
      exact ⟨[], by simp, by simp; omega, rfl, rfl⟩

theorem dqtLoop_complete : ∀ (ts : List DqtTable) (fuel : Nat) (d : Decoder) (rest : List UInt8),
    (∀ t ∈ ts, t.Valid) → 65 * ts.length ≤ fuel →
    parseDqtLoop fuel (65 * ts.length) ⟨d, ts.flatMap DqtTable.bytes ++ rest⟩ =
      (.ok (), ⟨{ d with qtTables := store d.qtTables ts }, rest⟩)
  | [], fuel, d, rest, _, _ => by
    cases fuel <;> rfl
  | t :: ts, fuel, d, rest, hv, hf => by
    rw [List.length_cons] at hf
    obtain ⟨f, rfl⟩ : ∃ f, fuel = f + 1 := ⟨fuel - 1, by omega⟩
    have hvt := hv t (by simp)
    have ih := dqtLoop_complete ts f { d with qtTables := store d.qtTables [t] } rest
      (fun t h => hv t (by simp [h])) (by omega)
    unfold parseDqtLoop
    rw [if_pos (by rw [List.length_cons]; omega)]
    have e : (t :: ts).flatMap DqtTable.bytes ++ rest =
        UInt8.ofNat t.dest :: (t.values ++ (ts.flatMap DqtTable.bytes ++ rest)) := by
      simp [DqtTable.bytes]
    have hk := hvt.dest
    have n1 : (UInt8.ofNat t.dest &&& 0x0f).toNat = t.dest := by
      have : t.dest = 0 ∨ t.dest = 1 ∨ t.dest = 2 ∨ t.dest = 3 := by omega
      rcases this with h | h | h | h <;> rw [h] <;> rfl
    have n2 : (UInt8.ofNat t.dest >>> 4).toNat = 0 := by
      have : t.dest = 0 ∨ t.dest = 1 ∨ t.dest = 2 ∨ t.dest = 3 := by omega
      rcases this with h | h | h | h <;> rw [h] <;> rfl
    have h1 : readByte ⟨d, UInt8.ofNat t.dest :: (t.values ++ (ts.flatMap DqtTable.bytes ++ rest))⟩ =
      (.ok (UInt8.ofNat t.dest), ⟨d, t.values ++ (ts.flatMap DqtTable.bytes ++ rest)⟩) := rfl
    rw [e, M.bind_ok h1]
    dsimp only
    rw [n1, n2, if_neg (by rw [List.length_cons]; omega), if_pos rfl]
    have h2 : readExact 64 .format ⟨d, t.values ++ (ts.flatMap DqtTable.bytes ++ rest)⟩ =
        (.ok t.values, ⟨d, ts.flatMap DqtTable.bytes ++ rest⟩) := by
      unfold readExact
      dsimp only
      have hl := hvt.len
      rw [if_neg (by rw [List.length_append]; omega)]
      rw [← hl, List.take_left, List.drop_left]
    rw [M.bind_ok h2, if_neg (by show ¬ t.dest ≥ 4; omega)]
    have h3 : modDec (fun d => { d with
        qtTables := d.qtTables.set t.dest (some (unZigZag (t.values.map (·.toNat)))) }) ⟨d, ts.flatMap DqtTable.bytes ++ rest⟩ =
        (.ok (), ⟨{ d with qtTables := store d.qtTables [t] }, ts.flatMap DqtTable.bytes ++ rest⟩) := rfl
    rw [M.bind_ok h3, show 65 * (t :: ts).length - (64 * (0 + 1) + 1) = 65 * ts.length by
      rw [List.length_cons]; omega, ih]
    rfl

/-- **C50.** Every list of valid tables that fits into a segment is accepted, whatever follows, with
the effect `DqtResult`; and whatever is accepted is such a segment, so that truncated tables, 16 bit
tables, destinations above 3 and wrong lengths are refused. -/
theorem c50_dqt (d : Decoder) (hd : d.qtTables.length = 4) :
    (∀ (ts : List DqtTable) (rest : List UInt8), (∀ t ∈ ts, t.Valid) → 65 * ts.length + 2 < 65536 →
      ∃ d', parseDqt ⟨d, lenBytes (65 * ts.length) ++ ts.flatMap DqtTable.bytes ++ rest⟩ =
        (.ok (), ⟨d', rest⟩) ∧ DqtResult d d' ts) ∧
    (∀ (rd rd' : List UInt8) (d' : Decoder), parseDqt ⟨d, rd⟩ = (.ok (), ⟨d', rd'⟩) →
      ∃ (hi lo : UInt8) (ts : List DqtTable), (∀ t ∈ ts, t.Valid) ∧
        256 * hi.toNat + lo.toNat = 65 * ts.length + 2 ∧
        rd = hi :: lo :: (ts.flatMap DqtTable.bytes ++ rd') ∧ DqtResult d d' ts) := by
  constructor
  · intro ts rest hv hlen
    refine ⟨_, ?_, dqt_result d hd ts hv⟩
    have hb := be16_lenBytes hlen
    unfold parseDqt
    have h1 : readU16 .format ⟨d, lenBytes (65 * ts.length) ++ ts.flatMap DqtTable.bytes ++ rest⟩ =
      (.ok (be16 (UInt8.ofNat ((65 * ts.length + 2) / 256))
        (UInt8.ofNat ((65 * ts.length + 2) % 256))), ⟨d, ts.flatMap DqtTable.bytes ++ rest⟩) := rfl
    rw [M.bind_ok h1, if_neg, hb]
    · exact dqtLoop_complete ts _ d rest hv (by omega)
    · intro hlt
      have : (be16 (UInt8.ofNat ((65 * ts.length + 2) / 256))
        (UInt8.ofNat ((65 * ts.length + 2) % 256))).toNat < 2 := hlt
      omega
  · intro rd rd' d' h
    unfold parseDqt at h
    obtain ⟨n, s1, h1, h⟩ := M.bind_ok_inv h
    match rd with
    | [] => cases h1
    | [x] => cases h1
    | x :: y :: r =>
      cases h1
      by_cases hlt : (be16 x y) < 2
      · rw [be16] at hlt
        rw [if_pos hlt] at h; cases h
      · have hlt' : ¬ (be16 x y).toNat < 2 := hlt
        rw [be16] at hlt
        rw [if_neg hlt, ← be16] at h
        obtain ⟨ts, hv, e1, e2, e3⟩ := dqtLoop_inv _ _ _ _ _ _ (by omega) h
        refine ⟨x, y, ts, hv, ?_, by rw [e2], by rw [e3]; exact dqt_result d hd ts hv⟩
        unfold be16 at e1 hlt'
        rw [u16_toNat] at e1 hlt'
        omega

/-- Two tables for the same destination; the second one stays. -/
example : ∃ ts : List DqtTable, (∀ t ∈ ts, t.Valid) ∧ 65 * ts.length + 2 < 65536 ∧
    (lastFor 1 ts).map (·.values) = some (List.replicate 64 7) ∧
    (lastFor 0 ts).map (·.values) = none ∧ (Decoder.new ⟨false, false⟩).qtTables.length = 4 := by
  refine ⟨[⟨1, List.replicate 64 5⟩, ⟨1, List.replicate 64 7⟩], ?_, by decide, by decide, by decide,
    by decide⟩
  intro t ht
  simp only [List.mem_cons, List.not_mem_nil, or_false] at ht
  rcases ht with rfl | rfl <;> exact ⟨by decide, by decide⟩

end Zune
