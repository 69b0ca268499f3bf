import Verif.Props.Tables
/-!
# C72: tables may come in any order and in any segments
-/

namespace Zune
open Spec

namespace Spec

/-- A segment that may come between two other segments of the header: some quantisation tables, some
Huffman tables, a restart interval or something the decoder skips. -/
inductive TableSeg where
  | quant (ts : List DqtTable)
  | huff (ts : List DhtTable)
  | restart (n : Nat)
  | other (s : Segment)

/-- The bytes of the segment, in marker and payload. -/
def TableSeg.segment : TableSeg → Segment
  | .quant ts => ⟨0xDB, ts.flatMap DqtTable.bytes⟩
  | .huff ts => ⟨0xC4, ts.flatMap DhtTable.bytes⟩
  | .restart n => ⟨0xDD, [UInt8.ofNat (n / 256), UInt8.ofNat (n % 256)]⟩
  | .other s => s

/-- The tables are well formed and fit into the segment. -/
def TableSeg.Valid : TableSeg → Prop
  | .quant ts => (∀ t ∈ ts, t.Valid) ∧ 65 * ts.length + 2 < 65536
  | .huff ts => (∀ t ∈ ts, t.Fits ∧ t.Codes) ∧ (ts.flatMap DhtTable.bytes).length + 2 < 65536
  | .restart n => n < 65536
  | .other s => Transparent s

/-- All quantisation tables, in order. -/
def quants : List TableSeg → List DqtTable
  | [] => []
  | .quant ts :: l => ts ++ quants l
  | _ :: l => quants l

/-- All Huffman tables, in order. -/
def huffs : List TableSeg → List DhtTable
  | [] => []
  | .huff ts :: l => ts ++ huffs l
  | _ :: l => huffs l

/-- All restart intervals, in order. -/
def restarts : List TableSeg → List Nat
  | [] => []
  | .restart n :: l => n :: restarts l
  | _ :: l => restarts l

/-- Two sequences of segments in which the last table for each destination and the last restart
interval are the same. -/
structure SameTables (S S' : List TableSeg) : Prop where
  quant : ∀ k, lastFor k (quants S) = lastFor k (quants S')
  huff : ∀ dc k, lastDht dc k (huffs S) = lastDht dc k (huffs S')
  restart : (restarts S).getLast? = (restarts S').getLast?

end Spec

/-! ### Storing tables -/

section
variable {α β : Type}

/-- Store the values of the chosen elements at their places. -/
def putAll (sel : α → Bool) (dest : α → Nat) (val : α → β) (l : List β) (ts : List α) : List β :=
  ts.foldl (fun l t => if sel t then l.set (dest t) (val t) else l) l

variable {sel : α → Bool} {dest : α → Nat} {val : α → β} {l : List β}

theorem putAll_length (ts : List α) : (putAll sel dest val l ts).length = l.length := by
  unfold putAll
  induction ts generalizing l with
  | nil => rfl
  | cons t ts ih =>
    rw [List.foldl_cons, ih]
    split
    · rw [List.length_set]
    · rfl

theorem putAll_get (ts : List α) (i : Nat) : (putAll sel dest val l ts)[i]? =
    match ts.reverse.find? fun t => sel t && dest t == i with
    | none => l[i]?
    | some t => if i < l.length then some (val t) else none := by
  induction ts using List.reverseRecOn with
  | nil => rfl
  | append_singleton ts t ih =>
    have e : putAll sel dest val l (ts ++ [t]) = if sel t then
        (putAll sel dest val l ts).set (dest t) (val t) else putAll sel dest val l ts := by
      unfold putAll
      rw [List.foldl_append]
      rfl
    rw [e, List.reverse_append, List.reverse_singleton, List.singleton_append, List.find?_cons]
    cases hs : sel t with
    | false =>
      rw [if_neg (by simp)]
      exact ih
    | true =>
      rw [if_pos rfl]
      by_cases hd : dest t = i
      · rw [List.getElem?_set, if_pos hd, putAll_length, hd]
        simp
      · rw [List.getElem?_set, if_neg hd, ih]
        have : (dest t == i) = false := by simpa using hd
        rw [this]
        simp

theorem putAll_congr {ts ts' : List α} (h : ∀ i, ts.reverse.find? (fun t => sel t && dest t == i) =
    ts'.reverse.find? fun t => sel t && dest t == i) :
    putAll sel dest val l ts = putAll sel dest val l ts' :=
  List.ext_getElem? fun i => by rw [putAll_get, putAll_get, h]

theorem putAll_append (ts ts' : List α) : putAll sel dest val l (ts ++ ts') =
    putAll sel dest val (putAll sel dest val l ts) ts' := by
  unfold putAll
  rw [List.foldl_append]
end

/-- The quantisation tables after some definitions. -/
def putQuants (l : List (Option (List Nat))) (ts : List DqtTable) : List (Option (List Nat)) :=
  putAll (fun _ => true) DqtTable.dest (fun t => some (unZigZag (t.values.map (·.toNat)))) l ts

/-- The Huffman tables of a class after some definitions. -/
def putHuffs (dc prog : Bool) (l : List (Option HuffmanTable)) (ts : List DhtTable) :
    List (Option HuffmanTable) :=
  putAll (fun t => t.dc == dc) DhtTable.dest (fun t => HuffmanTable.new (0 :: t.nums)
    (padTo256 (t.syms.map (·.toNat))) dc prog) l ts

/-- The decoder after some definitions. -/
def putTables (d : Decoder) (qs : List DqtTable) (hs : List DhtTable) (rs : List Nat) : Decoder :=
  { d with
    qtTables := putQuants d.qtTables qs
    dcTables := putHuffs true d.isProgressive d.dcTables hs
    acTables := putHuffs false d.isProgressive d.acTables hs
    restartInterval := rs.getLast?.getD d.restartInterval
    todo := rs.getLast?.getD d.todo }

theorem putTables_append (d : Decoder) (qs qs' : List DqtTable) (hs hs' : List DhtTable)
    (rs rs' : List Nat) : putTables d (qs ++ qs') (hs ++ hs') (rs ++ rs') =
      putTables (putTables d qs hs rs) qs' hs' rs' := by
  have e : ∀ a : Nat, (rs ++ rs').getLast?.getD a = rs'.getLast?.getD (rs.getLast?.getD a) := by
    intro a
    rw [List.getLast?_append]
    cases rs'.getLast? <;> rfl
  unfold putTables putQuants putHuffs
  simp only [putAll_append, e]

theorem putTables_same {d : Decoder} {S S' : List TableSeg} (h : SameTables S S') :
    putTables d (quants S) (huffs S) (restarts S) =
      putTables d (quants S') (huffs S') (restarts S') := by
  unfold putTables putQuants putHuffs
  rw [putAll_congr (ts := quants S) (ts' := quants S') fun i => by
      have := h.quant i
      unfold lastFor at this
      simpa only [Bool.true_and] using this,
    putAll_congr (sel := fun t : DhtTable => t.dc == true) (dest := DhtTable.dest) (ts := huffs S)
      (ts' := huffs S') fun i => h.huff true i,
    putAll_congr (sel := fun t : DhtTable => t.dc == false) (dest := DhtTable.dest) (ts := huffs S)
      (ts' := huffs S') fun i => h.huff false i, h.restart]

theorem foldl_dhtPut {ts : List DhtTable} : ∀ {d : Decoder}, (∀ t ∈ ts, t.Fits ∧ t.Codes) →
    ts.foldl dhtPut d = putTables d [] ts [] := by
  induction ts with
  | nil => intro d _; rfl
  | cons t ts ih =>
    intro d hv
    rw [List.foldl_cons, ih fun t h => hv t (by simp [h])]
    have := putTables_append d [] [] [t] ts [] []
    rw [List.nil_append, List.nil_append, List.singleton_append] at this
    rw [this]
    congr 1
    obtain ⟨h1, h2⟩ := hv t (by simp)
    obtain ⟨table, ht⟩ := (dht_new h1 d.isProgressive).2 h2
    unfold dhtPut putTables setTable putHuffs putAll putQuants putAll
    rw [ht]
    cases hb : t.dc with
    | true => rw [hb] at ht; simp [hb, ht]
    | false => rw [hb] at ht; simp [hb, ht]

theorem dqtBytes_length {ts : List DqtTable} (hv : ∀ t ∈ ts, t.Valid) :
    (ts.flatMap DqtTable.bytes).length = 65 * ts.length := by
  induction ts with
  | nil => rfl
  | cons t ts ih =>
    have := (hv t (by simp)).len
    rw [List.flatMap_cons, List.length_append, ih (fun t h => hv t (by simp [h]))]
    unfold DqtTable.bytes
    rw [List.length_cons, List.length_cons, this]
    omega

/-- What one of the segments does. -/
theorem tableSeg_ok {x : TableSeg} (hv : x.Valid) (d d' : Decoder) :
    SegOk x.segment.marker x.segment.payload d d' ↔
      d' = putTables d (quants [x]) (huffs [x]) (restarts [x]) := by
  have key : ∀ e, SegOk x.segment.marker x.segment.payload d e →
      (SegOk x.segment.marker x.segment.payload d d' ↔ d' = e) := by
    intro e h
    unfold SegOk at *
    rw [h]
    simp only [Prod.mk.injEq, true_and, H.mk.injEq, and_true]
    exact eq_comm
  refine key _ ?_
  cases x with
  | quant ts =>
    obtain ⟨h1, h2⟩ := hv
    have hlen := dqtBytes_length h1
    show parseDqt ⟨d, lenBytes (ts.flatMap DqtTable.bytes).length ++ _⟩ = _
    rw [hlen]
    have hb := be16_lenBytes h2
    unfold parseDqt
    have h3 : readU16 .format ⟨d, lenBytes (65 * ts.length) ++ ts.flatMap DqtTable.bytes⟩ =
      (.ok (be16 (UInt8.ofNat ((65 * ts.length + 2) / 256))
        (UInt8.ofNat ((65 * ts.length + 2) % 256))), ⟨d, ts.flatMap DqtTable.bytes⟩) := rfl
    show (readU16 .format >>= _) ⟨d, lenBytes (65 * ts.length) ++ ts.flatMap DqtTable.bytes⟩ = _
    rw [M.bind_ok h3, if_neg, hb]
    · have := dqtLoop_complete ts (65 * ts.length + 2) d [] h1 (by omega)
      rw [List.append_nil] at this
      rw [show 65 * ts.length + 2 - 2 = 65 * ts.length by omega, this]
      have e : store d.qtTables ts = putQuants d.qtTables (quants [.quant ts]) := by
        show store d.qtTables ts = putQuants d.qtTables (ts ++ [])
        rw [List.append_nil]
        rfl
      rw [e]
      rfl
    · intro hlt
      have : (be16 (UInt8.ofNat ((65 * ts.length + 2) / 256))
        (UInt8.ofNat ((65 * ts.length + 2) % 256))).toNat < 2 := hlt
      omega
  | huff ts =>
    obtain ⟨h1, h2⟩ := hv
    show parseHuffman ⟨d, lenBytes (ts.flatMap DhtTable.bytes).length ++ _⟩ = _
    rw [parseHuffman_eq d _ h2]
    have h3 := dhtLoop_complete ts ((ts.flatMap DhtTable.bytes).length + 2) 0 d [] h1
      (by unfold dhtSize; omega)
    rw [dhtLoop_zero, List.append_nil] at h3
    change parseHuffmanLoop _ (ts.flatMap DhtTable.bytes).length _ = _ at h3
    show (parseHuffmanLoop _ (ts.flatMap DhtTable.bytes).length >>= _)
      ⟨d, ts.flatMap DhtTable.bytes⟩ = _
    rw [M.bind_ok h3, foldl_dhtPut h1]
    show _ = (Out.ok (), (⟨putTables d [] (ts ++ []) [], []⟩ : H))
    rw [List.append_nil]
    rfl
  | restart n => exact dri_one d hv
  | other s => exact (Transparent.segOk hv d _).2 rfl

theorem TableSeg.header {x : TableSeg} (hv : x.Valid) : x.segment.Header := by
  cases x with
  | quant ts =>
    obtain ⟨h1, h2⟩ := hv
    refine ⟨?_, (by decide : (0xDB : UInt8) ≠ 0xFF), (by decide : (0xDB : UInt8) ≠ 0xDA)⟩
    have hlen := dqtBytes_length h1
    show (ts.flatMap DqtTable.bytes).length + 2 < 65536
    omega
  | huff ts => exact ⟨hv.2, (by decide : (0xC4 : UInt8) ≠ 0xFF), (by decide : (0xC4 : UInt8) ≠ 0xDA)⟩
  | restart n =>
    exact ⟨(by decide : 2 + 2 < 65536), (by decide : (0xDD : UInt8) ≠ 0xFF),
      (by decide : (0xDD : UInt8) ≠ 0xDA)⟩
  | other s => exact Transparent.header hv

theorem tableSegs_ok : ∀ {S : List TableSeg}, (∀ x ∈ S, x.Valid) → ∀ d d',
    SegsOk (S.map TableSeg.segment) d d' ↔ d' = putTables d (quants S) (huffs S) (restarts S)
  | [], _, d, d' => Iff.rfl
  | x :: S, hv, d, d' => by
    have e1 : quants (x :: S) = quants [x] ++ quants S := by cases x <;> simp [quants]
    have e2 : huffs (x :: S) = huffs [x] ++ huffs S := by cases x <;> simp [huffs]
    have e3 : restarts (x :: S) = restarts [x] ++ restarts S := by cases x <;> simp [restarts]
    rw [e1, e2, e3, putTables_append]
    show (∃ d1, _ ∧ _) ↔ _
    have ih := fun d d' => tableSegs_ok (S := S) (fun y hy => hv y (by simp [hy])) d d'
    simp only [tableSeg_ok (hv x (by simp)), exists_eq_left]
    exact ih _ _

/-- **C72.** In any file that starts with SOI and complete segments other than SOS, a sequence of DQT,
DHT, DRI and skipped segments may be replaced by any other such sequence in which the last table for
each destination and the last restart interval are the same: the decoder accepts the one if and only
if it accepts the other, with the same bytes and the same state. The tables may so be put in any
order, be joined in one segment or each have its own, and superseded tables may be left out. In strict
mode there must be a segment before them or neither of the sequences may be empty. -/
theorem c72_tables (d : Decoder) {A : List Segment} (hA : ∀ s ∈ A, s.Header)
    {S S' : List TableSeg} (hS : ∀ x ∈ S, x.Valid) (hS' : ∀ x ∈ S', x.Valid) (h : SameTables S S')
    (hstrict : d.options.getStrictMode = false ∨ A ≠ [] ∨ (S ≠ [] ∧ S' ≠ [])) (rest : List UInt8) :
    (∀ v d', d.decodeBuffer (0xFF :: 0xD8 :: (A.flatMap Segment.bytes ++
        (S.map TableSeg.segment).flatMap Segment.bytes ++ rest)) = (.ok v, d') ↔
      d.decodeBuffer (0xFF :: 0xD8 :: (A.flatMap Segment.bytes ++
        (S'.map TableSeg.segment).flatMap Segment.bytes ++ rest)) = (.ok v, d')) ∧
    (∀ d', d.readHeaders (0xFF :: 0xD8 :: (A.flatMap Segment.bytes ++
        (S.map TableSeg.segment).flatMap Segment.bytes ++ rest)) = (.ok (), d') ↔
      d.readHeaders (0xFF :: 0xD8 :: (A.flatMap Segment.bytes ++
        (S'.map TableSeg.segment).flatMap Segment.bytes ++ rest)) = (.ok (), d')) := by
  have same : SameHeaders d (0xFF :: 0xD8 :: (A.flatMap Segment.bytes ++
        (S.map TableSeg.segment).flatMap Segment.bytes ++ rest))
      (0xFF :: 0xD8 :: (A.flatMap Segment.bytes ++
        (S'.map TableSeg.segment).flatMap Segment.bytes ++ rest)) := by
    intro d' rd'
    have hd : ∀ {S : List TableSeg}, (∀ x ∈ S, x.Valid) →
        ∀ s ∈ A ++ S.map TableSeg.segment, s.Header := by
      intro S hS s hs
      rcases List.mem_append.1 hs with hs | hs
      · exact hA s hs
      · obtain ⟨x, hx, rfl⟩ := List.mem_map.1 hs
        exact TableSeg.header (hS x hx)
    rw [← List.flatMap_append, ← List.flatMap_append, decodeHeaders_segments (hd hS),
      decodeHeaders_segments (hd hS')]
    refine exists_congr fun d3 => ?_
    rw [SegsOk.append, SegsOk.append]
    simp only [tableSegs_ok hS, tableSegs_ok hS', putTables_same h]
    refine and_congr_right ?_
    rintro ⟨d1, h1, rfl⟩
    by_cases hn : A = []
    · subst hn
      have : d1 = d := h1
      subst this
      rcases hstrict with hs | hs | ⟨h1, h2⟩
      · exact HL.count hs
      · exact absurd rfl hs
      · rw [if_neg (by simpa using h1), if_neg (by simpa using h2)]
    · rw [if_neg (by simp [hn]), if_neg (by simp [hn])]
  exact ⟨same.decodeBuffer, same.readHeaders⟩

/-- A table with one code, of length one, for the symbol zero. -/
def Spec.zeroCode (dc : Bool) (k : Nat) : DhtTable := ⟨dc, k, 1 :: List.replicate 15 0, [0]⟩

/-- Four tables, each in its own segment and with one that is superseded; or the three others in two
segments, in another order. -/
def Spec.manySegs : List TableSeg :=
  [.huff [zeroCode true 0], .quant [⟨0, List.replicate 64 9⟩], .restart 0,
    .quant [⟨0, List.replicate 64 1⟩], .huff [zeroCode false 0]]
def Spec.fewSegs : List TableSeg :=
  [.restart 5, .quant [⟨0, List.replicate 64 1⟩], .other ⟨0xFE, [1, 2, 3]⟩, .restart 0,
    .huff [zeroCode false 0, zeroCode true 0]]

/-- They meet the hypotheses, and the file made with them is decoded. -/
example : (∀ x ∈ manySegs, x.Valid) ∧ (∀ x ∈ fewSegs, x.Valid) ∧ SameTables manySegs fewSegs ∧
    ((Decoder.new ⟨false, false⟩).decodeBuffer (0xFF :: 0xD8 :: ([].flatMap Segment.bytes ++
      (manySegs.map TableSeg.segment).flatMap Segment.bytes ++ ([0xFF, 0xC0, 0x00, 0x0B, 8, 0, 8, 0, 8,
        1, 1, 0x11, 0] ++ [0xFF, 0xDA, 0x00, 0x08, 1, 1, 0x00, 0, 63, 0, 0x3F, 0xFF, 0xD9])))).1 =
      .ok (List.replicate 64 128) := by
  have hc : ∀ dc, (zeroCode dc 0).Fits ∧ (zeroCode dc 0).Codes := by
    intro dc
    refine ⟨⟨(by decide : 0 < 4), rfl, rfl, (by decide +kernel : 1 ≤ 256)⟩, ?_, ?_⟩
    · show CodeExists (zeroCode true 0).nums
      unfold CodeExists
      decide +kernel
    · intro _ v hv
      rw [List.mem_singleton.1 hv]
      decide
  have hq : ∀ n, (⟨0, List.replicate 64 n⟩ : DqtTable).Valid :=
    fun n => ⟨(by decide : 0 < 4), List.length_replicate ..⟩
  refine ⟨?_, ?_, ⟨?_, ?_, rfl⟩, by decide +kernel⟩
  · intro x hx
    simp only [manySegs, List.mem_cons, List.not_mem_nil, or_false] at hx
    rcases hx with rfl | rfl | rfl | rfl | rfl
    · exact ⟨fun t ht => by rw [List.mem_singleton.1 ht]; exact hc _, by decide +kernel⟩
    · exact ⟨fun t ht => by rw [List.mem_singleton.1 ht]; exact hq _, by decide⟩
    · exact (by decide : 0 < 65536)
    · exact ⟨fun t ht => by rw [List.mem_singleton.1 ht]; exact hq _, by decide⟩
    · exact ⟨fun t ht => by rw [List.mem_singleton.1 ht]; exact hc _, by decide +kernel⟩
  · intro x hx
    simp only [fewSegs, List.mem_cons, List.not_mem_nil, or_false] at hx
    rcases hx with rfl | rfl | rfl | rfl | rfl
    · exact (by decide : 5 < 65536)
    · exact ⟨fun t ht => by rw [List.mem_singleton.1 ht]; exact hq _, by decide⟩
    · exact ⟨by decide, by decide, by decide⟩
    · exact (by decide : 0 < 65536)
    · refine ⟨fun t ht => ?_, by decide +kernel⟩
      simp only [List.mem_cons, List.not_mem_nil, or_false] at ht
      rcases ht with rfl | rfl <;> exact hc _
  · intro k
    by_cases hk : k = 0
    · subst hk; rfl
    · have : ((0 : Nat) == k) = false := by simpa using fun h => hk h.symm
      simp [lastFor, quants, manySegs, fewSegs, this]
  · intro dc k
    by_cases hk : k = 0
    · subst hk; cases dc <;> rfl
    · have : ((0 : Nat) == k) = false := by simpa using fun h => hk h.symm
      simp [lastDht, huffs, manySegs, fewSegs, zeroCode, this]

end Zune
