import Verif.Props.Huffman
import Verif.Lemmas.FileSegments
/-! # Property C10 for whole DHT segments -/

namespace Zune
open Zune.Spec

namespace Spec

/-- A table of a DHT segment (T.81 B.2.4.2). -/
structure DhtTable where
  dc : Bool
  dest : Nat
  counts : List UInt8
  syms : List UInt8

/-- The numbers of codes of each length. -/
def DhtTable.nums (t : DhtTable) : List Nat := t.counts.map (·.toNat)

/-- Class and destination, 16 counts, the symbols. -/
def DhtTable.bytes (t : DhtTable) : List UInt8 :=
  UInt8.ofNat ((if t.dc then 0 else 16) + t.dest) :: (t.counts ++ t.syms)

/-- The numbers fit their fields and there are as many symbols as the counts say. -/
structure DhtTable.Fits (t : DhtTable) : Prop where
  dest : t.dest < 4
  len : t.counts.length = 16
  syms : t.syms.length = t.nums.sum
  few : t.nums.sum ≤ 256

/-- The canonical code exists, and DC symbols are at most 15. -/
def DhtTable.Codes (t : DhtTable) : Prop :=
  CodeExists t.nums ∧ (t.dc = true → ∀ v ∈ t.syms, v.toNat ≤ 15)

/-- The last table of the list for a class and a destination. -/
def lastDht (dc : Bool) (k : Nat) (ts : List DhtTable) : Option DhtTable :=
  ts.reverse.find? fun t => t.dc == dc && t.dest == k

/-- The tables of a decoder of one class. -/
def tablesOf (d : Decoder) (dc : Bool) : List (Option HuffmanTable) :=
  if dc then d.dcTables else d.acTables

/-- What a DHT segment does: only the tables change; each destination holds the last table given for
it, or what it held before. -/
structure DhtResult (d d' : Decoder) (ts : List DhtTable) : Prop where
  rest : d' = { d with dcTables := d'.dcTables, acTables := d'.acTables }
  len : d'.dcTables.length = d.dcTables.length ∧ d'.acTables.length = d.acTables.length
  keep : ∀ dc k, lastDht dc k ts = none → (tablesOf d' dc)[k]? = (tablesOf d dc)[k]?
  new : ∀ dc k t, lastDht dc k ts = some t →
    ∃ table, (tablesOf d' dc)[k]? = some (some table) ∧
      Accepted t.nums (padTo256 (t.syms.map (·.toNat))) dc d.isProgressive table

end Spec

theorem padTo256_ok {l : List UInt8} (h : l.length ≤ 256) :
    (padTo256 (l.map (·.toNat))).length = 256 ∧ ∀ v ∈ padTo256 (l.map (·.toNat)), v < 256 := by
  unfold padTo256
  refine ⟨by simp; omega, fun v hv => ?_⟩
  rcases List.mem_append.1 hv with hv | hv
  · obtain ⟨b, -, rfl⟩ := List.mem_map.1 hv
    exact b.toNat_lt
  · rw [List.eq_of_mem_replicate hv]; omega

/-- Acceptance of a table that fits. -/
theorem dht_new {t : DhtTable} (hf : t.Fits) (prog : Bool) :
    (∃ table, HuffmanTable.new (0 :: t.nums) (padTo256 (t.syms.map (·.toNat))) t.dc prog =
      some table) ↔ t.Codes := by
  rw [c10_accepted_iff _ _ _ _ (by rw [DhtTable.nums, List.length_map, hf.len])]
  have e : (padTo256 (t.syms.map (·.toNat))).take t.nums.sum = t.syms.map (·.toNat) := by
    unfold padTo256
    rw [List.take_append_of_le_length (by rw [List.length_map, hf.syms]), List.take_of_length_le]
    rw [List.length_map, hf.syms]
  rw [e]
  unfold DhtTable.Codes
  simp

theorem dht_accepted {t : DhtTable} (hf : t.Fits) {prog : Bool} {table : HuffmanTable}
    (h : HuffmanTable.new (0 :: t.nums) (padTo256 (t.syms.map (·.toNat))) t.dc prog =
      some table) : Accepted t.nums (padTo256 (t.syms.map (·.toNat))) t.dc prog table :=
  ⟨by rw [DhtTable.nums, List.length_map, hf.len], hf.few,
    (padTo256_ok (by rw [hf.syms]; exact hf.few)).1, (padTo256_ok (by rw [hf.syms]; exact hf.few)).2, h⟩

/-- The decoder after storing a table. -/
def dhtPut (d : Decoder) (t : DhtTable) : Decoder :=
  match HuffmanTable.new (0 :: t.nums) (padTo256 (t.syms.map (·.toNat))) t.dc d.isProgressive with
  | some table => setTable d t.dc t.dest table
  | none => d

theorem dhtPut_result {d : Decoder} {ts : List DhtTable} {d1 : Decoder} (h : DhtResult d d1 ts)
    (hd : d.dcTables.length = 4 ∧ d.acTables.length = 4) {t : DhtTable} (hf : t.Fits)
    (hc : t.Codes) : DhtResult d (dhtPut d1 t) (ts ++ [t]) := by
  obtain ⟨table, ht⟩ := (dht_new hf d1.isProgressive).2 hc
  have hp : d1.isProgressive = d.isProgressive := by rw [h.rest]
  have e : dhtPut d1 t = setTable d1 t.dc t.dest table := by unfold dhtPut; rw [ht]
  have ha := dht_accepted hf ht
  rw [hp] at ha
  have e2 : ∀ dc k, lastDht dc k (ts ++ [t]) =
      if t.dc == dc && t.dest == k then some t else lastDht dc k ts := by
    intro dc k
    unfold lastDht
    rw [List.reverse_append, List.reverse_singleton, List.singleton_append, List.find?_cons]
    cases (t.dc == dc && t.dest == k) <;> rfl
  have hl : ∀ dc, (tablesOf d1 dc).length = 4 := by
    intro dc
    have := h.len
    cases dc
    · exact this.2.trans hd.2
    · exact this.1.trans hd.1
  have e3 : ∀ dc k, (tablesOf (setTable d1 t.dc t.dest table) dc)[k]? =
      if t.dc == dc && t.dest == k then some (some table) else (tablesOf d1 dc)[k]? := by
    intro dc k
    have h4 := hl dc
    have hk := hf.dest
    have key : ∀ l : List (Option HuffmanTable), l.length = 4 →
        (l.set t.dest (some table))[k]? = if t.dest == k then some (some table) else l[k]? := by
      intro l hl4
      rw [List.getElem?_set]
      by_cases hk2 : t.dest = k
      · rw [if_pos hk2, if_pos (by omega), if_pos (by simpa using hk2)]
      · rw [if_neg hk2, if_neg (by simpa using hk2)]
    unfold setTable tablesOf
    cases hb : t.dc <;> cases dc <;> simp <;> (try rfl) <;>
      exact (by simpa [tablesOf] using key _ h4)
  rw [e]
  refine ⟨?_, ?_, ?_, ?_⟩
  · rw [h.rest]; unfold setTable; cases t.dc <;> rfl
  · rw [← h.len.1, ← h.len.2]; unfold setTable; cases t.dc <;> simp
  · intro dc k hn
    rw [e2] at hn
    rw [e3]
    split at hn
    · cases hn
    · rename_i hb; rw [if_neg hb]; exact h.keep dc k hn
  · intro dc k x hn
    rw [e2] at hn
    rw [e3]
    split at hn
    · rename_i hb
      cases hn
      rw [if_pos hb]
      have : t.dc = dc := by simp at hb; exact hb.1
      rw [← this]
      exact ⟨table, rfl, ha⟩
    · rename_i hb; rw [if_neg hb]; exact h.new dc k x hn

theorem dhtPuts_result {d : Decoder} (hd : d.dcTables.length = 4 ∧ d.acTables.length = 4)
    (ts : List DhtTable) (hv : ∀ t ∈ ts, t.Fits ∧ t.Codes) :
    DhtResult d (ts.foldl dhtPut d) ts := by
  induction ts using List.reverseRecOn with
  | nil =>
    refine ⟨rfl, ⟨rfl, rfl⟩, fun _ _ _ => rfl, ?_⟩
    intro dc k t h
    cases h
  | append_singleton ts t ih =>
    rw [List.foldl_append]
    exact dhtPut_result (ih fun x hx => hv x (by simp [hx])) hd (hv t (by simp)).1 (hv t (by simp)).2

theorem DhtTable.bytes_length {t : DhtTable} (hf : t.Fits) : t.bytes.length = 17 + t.nums.sum := by
  rw [DhtTable.bytes, List.length_cons, List.length_append, hf.len, hf.syms]; omega

/-- One round of the loop. -/
theorem dhtLoop_step (fuel len : Nat) (d : Decoder) (t : DhtTable) (hf : t.Fits) (rest : List UInt8)
    (hlen : 17 + t.nums.sum ≤ len) :
    (∀ table, HuffmanTable.new (0 :: t.nums) (padTo256 (t.syms.map (·.toNat))) t.dc
        d.isProgressive = some table →
      parseHuffmanLoop (fuel + 1) len ⟨d, t.bytes ++ rest⟩ =
        parseHuffmanLoop fuel (len - 17 - t.nums.sum) ⟨setTable d t.dc t.dest table, rest⟩) ∧
    (HuffmanTable.new (0 :: t.nums) (padTo256 (t.syms.map (·.toNat))) t.dc d.isProgressive = none →
      (parseHuffmanLoop (fuel + 1) len ⟨d, t.bytes ++ rest⟩).1 = .err .huffmanDecode) := by
  have hk := hf.dest
  have hi : (UInt8.ofNat ((if t.dc then 0 else 16) + t.dest) >>> 4).toNat = if t.dc then 0 else 1 := by
    have : ∀ (b : Bool) (k : Fin 4), (UInt8.ofNat ((if b then 0 else 16) + (k : Nat)) >>> 4).toNat =
      if b then 0 else 1 := by decide
    exact this t.dc ⟨t.dest, hk⟩
  have hx : (UInt8.ofNat ((if t.dc then 0 else 16) + t.dest) &&& 0xF).toNat = t.dest := by
    have : ∀ (b : Bool) (k : Fin 4), (UInt8.ofNat ((if b then 0 else 16) + (k : Nat)) &&& 0xF).toNat =
      k := by decide
    exact this t.dc ⟨t.dest, hk⟩
  have hfew := hf.few
  have hsum : (0 :: t.counts.map (·.toNat)).sum = t.nums.sum := by
    rw [List.sum_cons, DhtTable.nums]; omega
  have r1 : readByte ⟨d, t.bytes ++ rest⟩ =
      (.ok (UInt8.ofNat ((if t.dc then 0 else 16) + t.dest)), ⟨d, t.counts ++ (t.syms ++ rest)⟩) := by
    rw [← List.append_assoc]; rfl
  have r3 : getDec (⟨d, rest⟩ : H) = (.ok d, ⟨d, rest⟩) := rfl
  have hdec : decide ((if t.dc then 0 else 1 : Nat) = 0) = t.dc := by cases t.dc <;> rfl
  constructor
  · intro table ht
    conv_lhs => rw [parseHuffmanLoop]
    rw [if_pos (by omega), M.bind_ok r1, hi, hx, if_neg (by show ¬ t.dest ≥ 4; omega),
      if_neg (by split <;> omega), M.bind_ok (readExact_append _ d t.counts _ hf.len)]
    dsimp only
    rw [hsum, if_neg (by omega), if_neg (by omega)]
    rw [M.bind_ok (readExact_append .format d t.syms rest hf.syms), M.bind_ok r3]
    have r4 : M.okOr (HuffmanTable.new (0 :: t.counts.map (·.toNat))
        (padTo256 (t.syms.map (·.toNat)))
        (decide ((if t.dc then 0 else 1 : Nat) = 0)) d.isProgressive) .huffmanDecode (⟨d, rest⟩ : H) =
        (.ok table, ⟨d, rest⟩) := by
      rw [hdec]; unfold DhtTable.nums at ht; rw [ht]; rfl
    rw [M.bind_ok r4]
    have r5 : modDec (fun d => if (if t.dc then 0 else 1 : Nat) = 0
        then { d with dcTables := d.dcTables.set t.dest (some table) }
        else { d with acTables := d.acTables.set t.dest (some table) }) ⟨d, rest⟩ =
        (.ok (), ⟨setTable d t.dc t.dest table, rest⟩) := by
      cases t.dc <;> rfl
    rw [M.bind_ok r5]
  · intro ht
    conv_lhs => rw [parseHuffmanLoop]
    rw [if_pos (by omega), M.bind_ok r1, hi, hx, if_neg (by show ¬ t.dest ≥ 4; omega),
      if_neg (by split <;> omega), M.bind_ok (readExact_append _ d t.counts _ hf.len)]
    dsimp only
    rw [hsum, if_neg (by omega), if_neg (by omega)]
    rw [M.bind_ok (readExact_append .format d t.syms rest hf.syms), M.bind_ok r3]
    have r4 : M.okOr (HuffmanTable.new (0 :: t.counts.map (·.toNat))
        (padTo256 (t.syms.map (·.toNat)))
        (decide ((if t.dc then 0 else 1 : Nat) = 0)) d.isProgressive) .huffmanDecode (⟨d, rest⟩ : H) =
        (.err .huffmanDecode, ⟨d, rest⟩) := by
      rw [hdec]; unfold DhtTable.nums at ht; rw [ht]; rfl
    rw [M.bind_err r4]

theorem setTable_prog (d : Decoder) (dc : Bool) (k : Nat) (t : HuffmanTable) :
    (setTable d dc k t).isProgressive = d.isProgressive := by
  unfold setTable; cases dc <;> rfl

/-- The number of bytes of some tables. -/
def dhtSize (ts : List DhtTable) : Nat := (ts.flatMap DhtTable.bytes).length

theorem dhtSize_cons (t : DhtTable) (ts : List DhtTable) :
    dhtSize (t :: ts) = t.bytes.length + dhtSize ts := by
  simp [dhtSize]

theorem dhtLoop_complete : ∀ (ts : List DhtTable) (fuel : Nat) (extra : Nat) (d : Decoder)
    (rest : List UInt8),
    (∀ t ∈ ts, t.Fits ∧ t.Codes) → dhtSize ts + extra ≤ fuel →
    parseHuffmanLoop fuel (dhtSize ts + extra) ⟨d, ts.flatMap DhtTable.bytes ++ rest⟩ =
      parseHuffmanLoop (fuel - ts.length) extra ⟨ts.foldl dhtPut d, rest⟩
  | [], fuel, extra, d, rest, _, _ => by simp [dhtSize]
  | t :: ts, fuel, extra, d, rest, hv, hf => by
    obtain ⟨h1, h2⟩ := hv t (by simp)
    have hb := DhtTable.bytes_length h1
    rw [dhtSize_cons] at hf ⊢
    obtain ⟨f, rfl⟩ : ∃ f, fuel = f + 1 := ⟨fuel - 1, by omega⟩
    obtain ⟨table, ht⟩ := (dht_new h1 d.isProgressive).2 h2
    rw [List.flatMap_cons, List.append_assoc,
      (dhtLoop_step f _ d t h1 _ (by omega)).1 table ht,
      show t.bytes.length + dhtSize ts + extra - 17 - t.nums.sum = dhtSize ts + extra by omega,
      dhtLoop_complete ts f extra _ rest (fun x hx => hv x (by simp [hx])) (by omega)]
    rw [List.foldl_cons, show dhtPut d t = setTable d t.dc t.dest table by unfold dhtPut; rw [ht],
      List.length_cons, show f + 1 - (ts.length + 1) = f - ts.length by omega]

theorem dhtLoop_zero (fuel : Nat) (s : H) : parseHuffmanLoop fuel 0 s = (.ok 0, s) := by
  cases fuel <;> (unfold parseHuffmanLoop; rfl)

theorem dht_info {b : UInt8} (h1 : ¬ (b &&& 0xF).toNat ≥ 4) (h2 : ¬ (b >>> 4).toNat > 1) :
    b = UInt8.ofNat ((if decide ((b >>> 4).toNat = 0) then 0 else 16) + (b &&& 0xF).toNat) := by
  have : ∀ b : UInt8, ¬ (b &&& 0xF).toNat ≥ 4 → ¬ (b >>> 4).toNat > 1 →
    b = UInt8.ofNat ((if decide ((b >>> 4).toNat = 0) then 0 else 16) + (b &&& 0xF).toNat) := by
    intro b
    have : ∀ n : Fin 256, ¬ (UInt8.ofNat n &&& 0xF).toNat ≥ 4 → ¬ (UInt8.ofNat n >>> 4).toNat > 1 →
      UInt8.ofNat n = UInt8.ofNat ((if decide ((UInt8.ofNat n >>> 4).toNat = 0) then 0 else 16) +
        (UInt8.ofNat n &&& 0xF).toNat) := by decide +kernel
    have h := this ⟨b.toNat, b.toNat_lt⟩
    simpa using h
  exact this b h1 h2

theorem dhtLoop_inv : ∀ (fuel len left : Nat) (d d' : Decoder) (rd rd' : List UInt8),
    parseHuffmanLoop fuel len ⟨d, rd⟩ = (.ok left, ⟨d', rd'⟩) →
    ∃ ts : List DhtTable, (∀ t ∈ ts, t.Fits ∧ t.Codes) ∧ len = dhtSize ts + left ∧
      rd = ts.flatMap DhtTable.bytes ++ rd' ∧ d' = ts.foldl dhtPut d
  | 0, len, left, d, d', rd, rd', h => by
    unfold parseHuffmanLoop at h
    by_cases hl : len > 16
    · rw [if_pos hl] at h; cases h
    · rw [if_neg hl] at h
      cases h
      exact ⟨[], by simp, by simp [dhtSize], rfl, rfl⟩
  | fuel + 1, len, left, d, d', rd, rd', h => by
    by_cases hl : len > 16
    · have h0 := h
      unfold parseHuffmanLoop at h
      rw [if_pos hl] at h
      obtain ⟨b, s1, h1, h⟩ := M.bind_ok_inv h
      cases rd with
      | nil => cases h1
      | cons b' r =>
      cases h1
      dsimp only at h
      by_cases c1 : (b &&& 0xF).toNat ≥ MAX_COMPONENTS
      · rw [if_pos c1] at h; cases h
      rw [if_neg c1] at h
      by_cases c2 : (b >>> 4).toNat > 1
      · rw [if_pos c2] at h; cases h
      rw [if_neg c2] at h
      obtain ⟨counts, s2, h2, h⟩ := M.bind_ok_inv h
      unfold readExact at h2
      dsimp only at h2
      by_cases c3 : r.length < 16
      · rw [if_pos c3] at h2; cases h2
      rw [if_neg c3] at h2
      cases h2
      by_cases c4 : (0 :: (r.take 16).map (·.toNat)).sum > 256
      · rw [if_pos c4] at h; cases h
      rw [if_neg c4] at h
      by_cases c5 : (0 :: (r.take 16).map (·.toNat)).sum > len - 17
      · rw [if_pos c5] at h; cases h
      rw [if_neg c5] at h
      obtain ⟨syms, s3, h3, h⟩ := M.bind_ok_inv h
      unfold readExact at h3
      dsimp only at h3
      by_cases c6 : (r.drop 16).length < (0 :: (r.take 16).map (·.toNat)).sum
      · rw [if_pos c6] at h3; cases h3
      rw [if_neg c6] at h3
      cases h3
      obtain ⟨t, ht⟩ : ∃ t : DhtTable, t = ⟨decide ((b >>> 4).toNat = 0), (b &&& 0xF).toNat,
        r.take 16, (r.drop 16).take (0 :: (r.take 16).map (·.toNat)).sum⟩ := ⟨_, rfl⟩
      have es : (0 :: (r.take 16).map (·.toNat)).sum = t.nums.sum := by
        rw [ht, List.sum_cons, DhtTable.nums]; dsimp only; omega
      have hf : t.Fits := by
        refine ⟨?_, ?_, ?_, ?_⟩
        · rw [ht]; dsimp only; exact Nat.lt_of_not_le c1
        · rw [ht]; dsimp only; rw [List.length_take]; omega
        · rw [← es, ht]; dsimp only; rw [List.length_take]; omega
        · omega
      have hb : b :: r = t.bytes ++ (r.drop 16).drop t.nums.sum := by
        rw [← es, DhtTable.bytes, ht]
        dsimp only
        rw [← dht_info c1 c2, List.cons_append, List.append_assoc, List.take_append_drop,
          List.take_append_drop]
      rw [hb] at h0
      cases hn : HuffmanTable.new (0 :: t.nums) (padTo256 (t.syms.map (·.toNat))) t.dc
          d.isProgressive with
      | none =>
        have := (dhtLoop_step fuel len d t hf ((r.drop 16).drop t.nums.sum) (by omega)).2 hn
        rw [h0] at this; cases this
      | some table =>
        rw [(dhtLoop_step fuel len d t hf ((r.drop 16).drop t.nums.sum) (by omega)).1 table hn] at h0
        obtain ⟨ts, hv, e1, e2, e3⟩ := dhtLoop_inv fuel _ _ _ _ _ _ h0
        have hlen := DhtTable.bytes_length hf
        refine ⟨t :: ts, ?_, ?_, ?_, ?_⟩
        · intro x hx
          rcases List.mem_cons.1 hx with rfl | hx
          · exact ⟨hf, (dht_new hf _).1 ⟨_, hn⟩⟩
          · exact hv x hx
        · rw [dhtSize_cons]; omega
        · rw [hb, List.flatMap_cons, List.append_assoc, ← e2]
        · rw [e3, List.foldl_cons, show dhtPut d t = setTable d t.dc t.dest table by
            unfold dhtPut; rw [hn]]
    · unfold parseHuffmanLoop at h
      rw [if_neg hl] at h
      cases h
      exact ⟨[], by simp, by simp [dhtSize], rfl, rfl⟩

theorem parseHuffman_eq (d : Decoder) (n : Nat) (hn : n + 2 < 65536) (r : List UInt8) :
    parseHuffman ⟨d, lenBytes n ++ r⟩ =
      (do let left ← parseHuffmanLoop (n + 2) n
          M.failIf (left > 0) .huffmanDecode : M H Unit) ⟨d, r⟩ := by
  have hb := be16_lenBytes hn
  unfold parseHuffman
  have h1 : readU16 .formatStatic ⟨d, lenBytes n ++ r⟩ =
      (.ok (be16 (UInt8.ofNat ((n + 2) / 256)) (UInt8.ofNat ((n + 2) % 256))), ⟨d, r⟩) := rfl
  rw [M.bind_ok h1, if_neg]
  rotate_left
  · intro hlt
    have : (be16 (UInt8.ofNat ((n + 2) / 256)) (UInt8.ofNat ((n + 2) % 256))).toNat < 2 := hlt
    omega
  rw [hb, show n + 2 - 2 = n by omega]

/-- **C10.** A DHT segment is accepted exactly when it is a sequence of tables, of class 0 or 1 and
destination 0 to 3, each with a canonical code, with nothing left over; each destination then holds
the last table given for it (`DhtResult`). A table without such a code after any number of good ones
gives `HuffmanDecode`, whatever follows it, inside the segment or behind. -/
theorem c10_dht (d : Decoder) (hd : d.dcTables.length = 4 ∧ d.acTables.length = 4) :
    (∀ (ts : List DhtTable) (rest : List UInt8), (∀ t ∈ ts, t.Fits ∧ t.Codes) →
      (ts.flatMap DhtTable.bytes).length + 2 < 65536 →
      ∃ d', parseHuffman ⟨d, lenBytes (ts.flatMap DhtTable.bytes).length ++
          (ts.flatMap DhtTable.bytes ++ rest)⟩ = (.ok (), ⟨d', rest⟩) ∧ DhtResult d d' ts) ∧
    (∀ (rd rd' : List UInt8) (d' : Decoder), parseHuffman ⟨d, rd⟩ = (.ok (), ⟨d', rd'⟩) →
      ∃ (hi lo : UInt8) (ts : List DhtTable), (∀ t ∈ ts, t.Fits ∧ t.Codes) ∧
        256 * hi.toNat + lo.toNat = (ts.flatMap DhtTable.bytes).length + 2 ∧
        rd = hi :: lo :: (ts.flatMap DhtTable.bytes ++ rd') ∧ DhtResult d d' ts) ∧
    (∀ (ts : List DhtTable) (t : DhtTable) (n : Nat) (rest : List UInt8),
      (∀ t ∈ ts, t.Fits ∧ t.Codes) → t.Fits → ¬ t.Codes →
      ((ts ++ [t]).flatMap DhtTable.bytes).length ≤ n → n + 2 < 65536 →
      (parseHuffman ⟨d, lenBytes n ++ ((ts ++ [t]).flatMap DhtTable.bytes ++ rest)⟩).1 =
        .err .huffmanDecode) := by
  refine ⟨?_, ?_, ?_⟩
  · intro ts rest hv hlen
    refine ⟨_, ?_, dhtPuts_result hd ts hv⟩
    rw [parseHuffman_eq d _ hlen]
    have h1 := dhtLoop_complete ts ((ts.flatMap DhtTable.bytes).length + 2) 0 d rest hv
      (by unfold dhtSize; omega)
    rw [dhtLoop_zero] at h1
    change parseHuffmanLoop _ (ts.flatMap DhtTable.bytes).length _ = _ at h1
    rw [M.bind_ok h1]
    rfl
  · intro rd rd' d' h
    unfold parseHuffman at h
    obtain ⟨n, s1, h1, h⟩ := M.bind_ok_inv h
    match rd with
    | [] => cases h1
    | [x] => cases h1
    | x :: y :: r =>
      cases h1
      by_cases hlt : (be16 x y) < 2
      · rw [be16] at hlt
        rw [if_pos hlt] at h; cases h
      · have hlt' : ¬ (be16 x y).toNat < 2 := hlt
        rw [be16] at hlt
        rw [if_neg hlt, ← be16] at h
        obtain ⟨left, s2, h2, h⟩ := M.bind_ok_inv h
        by_cases hp : left > 0
        · unfold M.failIf at h
          rw [if_pos (by simpa using hp)] at h; cases h
        · have hs : s2 = ⟨d', rd'⟩ := by
            unfold M.failIf at h
            rw [if_neg (by simpa using hp)] at h
            cases h; rfl
          subst hs
          obtain ⟨ts, hv, e1, e2, e3⟩ := dhtLoop_inv _ _ _ _ _ _ _ h2
          refine ⟨x, y, ts, hv, ?_, by rw [e2], by rw [e3]; exact dhtPuts_result hd ts hv⟩
          unfold be16 dhtSize at *
          rw [u16_toNat] at e1 hlt'
          omega
  · intro ts t n rest hv hf hc hn hlen
    rw [parseHuffman_eq d _ hlen]
    rw [List.flatMap_append, List.length_append, List.flatMap_singleton] at hn
    have h1 := dhtLoop_complete ts (n + 2) (n - dhtSize ts) d (t.bytes ++ rest) hv
      (by unfold dhtSize; omega)
    rw [show dhtSize ts + (n - dhtSize ts) = n by unfold dhtSize; omega] at h1
    rw [List.flatMap_append, List.flatMap_singleton, List.append_assoc]
    have hb := DhtTable.bytes_length hf
    have hts : ts.length ≤ dhtSize ts := by
      unfold dhtSize
      clear h1 hn
      induction ts with
      | nil => simp
      | cons x ts ih =>
        have := ih fun y hy => hv y (by simp [hy])
        rw [List.flatMap_cons, List.length_append, List.length_cons, DhtTable.bytes, List.length_cons]
        omega
    have hno : HuffmanTable.new (0 :: t.nums) (padTo256 (t.syms.map (·.toNat))) t.dc
        (ts.foldl dhtPut d).isProgressive = none := by
      cases e : HuffmanTable.new (0 :: t.nums) (padTo256 (t.syms.map (·.toNat))) t.dc
        (ts.foldl dhtPut d).isProgressive with
      | none => rfl
      | some x => exact absurd ((dht_new hf _).1 ⟨x, e⟩) hc
    have h2 := (dhtLoop_step (n + 1 - ts.length) (n - dhtSize ts) (ts.foldl dhtPut d) t hf rest
      (by unfold dhtSize; omega)).2 hno
    rw [show n + 1 - ts.length + 1 = n + 2 - ts.length by unfold dhtSize at hts; omega, ← h1] at h2
    obtain ⟨o, s, hos⟩ : ∃ o s, parseHuffmanLoop (n + 2) n
      ⟨d, ts.flatMap DhtTable.bytes ++ (t.bytes ++ rest)⟩ = (o, s) := ⟨_, _, rfl⟩
    rw [hos] at h2
    dsimp only at h2
    subst h2
    rw [M.bind_err hos]

/-- A segment with a DC and an AC table for the same destination, and an incomplete code that is
accepted; and a table with three codes of one bit, that is not. -/
example : ∃ ts : List DhtTable, (∀ t ∈ ts, t.Fits ∧ t.Codes) ∧
    (ts.flatMap DhtTable.bytes).length = 39 ∧
    (lastDht true 1 ts).map (·.syms) = some [3, 4] ∧ (lastDht false 1 ts).map (·.syms) = some [0xF0, 0, 1] ∧
    lastDht true 0 ts = none ∧
    (⟨true, 0, 3 :: List.replicate 15 0, [0, 1, 2]⟩ : DhtTable).Fits ∧
    ¬ (⟨true, 0, 3 :: List.replicate 15 0, [0, 1, 2]⟩ : DhtTable).Codes := by
  refine ⟨[⟨true, 1, [0, 2] ++ List.replicate 14 0, [3, 4]⟩,
    ⟨false, 1, [1, 1, 1] ++ List.replicate 13 0, [0xF0, 0, 1]⟩], ?_, by decide, by decide, by decide,
    by decide, ⟨by decide, by decide, by decide, by decide⟩, ?_⟩
  · intro t ht
    simp only [List.mem_cons, List.not_mem_nil, or_false] at ht
    rcases ht with rfl | rfl <;>
      refine ⟨⟨by decide, by decide, by decide, by decide⟩, ?_, by decide⟩ <;>
      (unfold CodeExists; decide)
  · rintro ⟨h, -⟩
    revert h
    unfold CodeExists
    decide

end Zune
