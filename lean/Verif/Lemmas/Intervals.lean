import Verif.Lemmas.Units
import Verif.Lemmas.GrayFile
/-! Scans with several components and restart intervals. -/

namespace Zune
open Spec

/-! ### Data units by components -/

theorem groupsUnits_append (n : Nat) (f : Nat → Nat × Nat) (m : Nat → Nat → Nat → Nat → List Int)
    (k a b : Nat) : groupsUnits n f m k (a + b) = groupsUnits n f m k a ++ groupsUnits n f m (k + a) b := by
  unfold groupsUnits
  rw [← List.flatMap_append, List.range'_append_1]

/-- The components `i` to `i + c - 1` of MCU `q`. -/
theorem groups_part {n : Nat} (f : Nat → Nat × Nat) (m : Nat → Nat → Nat → Nat → List Int) (q i c : Nat)
    (h : i + c ≤ n) : groupsUnits n f m (n * q + i) c =
      (List.range' i c).flatMap fun i => (List.range (f i).1).flatMap fun a =>
        (List.range (f i).2).map fun b => (i, m q i a b) := by
  unfold groupsUnits
  rw [← List.map_add_range', List.flatMap_map]
  apply List.flatMap_congr
  intro x hx
  have hx' := List.mem_range'_1.1 hx
  unfold groupUnits
  rw [Nat.mul_add_mod, Nat.mod_eq_of_lt (by omega), Nat.mul_add_div (by omega), Nat.div_eq_of_lt (by omega),
    Nat.add_zero]

theorem groups_mcu {n : Nat} (f : Nat → Nat × Nat) (m : Nat → Nat → Nat → Nat → List Int) (q : Nat) :
    groupsUnits n f m (n * q) n = mcuUnits n f (m q) := by
  have := groups_part (n := n) f m q 0 n (by omega)
  rw [Nat.add_zero] at this
  rw [this, ← List.range_eq_range']
  rfl

theorem groups_mcus {n : Nat} (f : Nat → Nat × Nat) (m : Nat → Nat → Nat → Nat → List Int) (k c : Nat) :
    groupsUnits n f m (n * k) (n * c) = mcusUnits n f m k c := by
  induction c with
  | zero => rfl
  | succ c ih =>
    rw [Nat.mul_add, Nat.mul_one, groupsUnits_append, ih, ← Nat.mul_add, groups_mcu, mcusUnits_append]
    congr 1
    unfold mcusUnits
    simp

theorem unitsBits_append (C : Nat → Codes) (p : Nat → Int) (a b : List DataUnit) :
    unitsBits C p (a ++ b) = unitsBits C p a ++ unitsBits C (predsAfter p a) b := by
  induction a generalizing p with
  | nil => rfl
  | cons u us ih =>
    show _ ++ unitsBits C _ (us ++ b) = (_ ++ unitsBits C _ us) ++ _
    rw [ih, List.append_assoc]
    rfl

theorem length_bytesBits : ∀ l : List UInt8, (bytesBits l).length = 8 * l.length
  | [] => rfl
  | b :: l => by
    show (natBits 8 b.toNat ++ bytesBits l).length = _
    rw [List.length_append, length_bytesBits l, natBits_length, List.length_cons]
    omega

theorem far_of_enough {C : Nat → Codes} {us : List DataUnit} {fill : List UInt8}
    (h : EnoughBits C us fill) :
    Far C (List.replicate (padCount (unitsBits C (fun _ => 0) us).length) true ++ bytesBits fill)
      (fun _ => 0) us := by
  intro a b e hb
  obtain ⟨b', u, rfl⟩ : ∃ b' u, b = b' ++ [u] := ⟨b.dropLast, b.getLast hb, (List.dropLast_append_getLast hb).symm⟩
  have h1 := h (a ++ b') u (by rw [e, List.append_assoc])
  rw [unitsBits_append, ← predsAfter_append, List.length_append, List.length_append,
    List.length_replicate, length_bytesBits]
  have h2 : (unitsBits C (predsAfter (fun _ => 0) (a ++ b')) [u]).length =
      (blockBits (C u.1).dcWord (C u.1).acWord (predsAfter (fun _ => 0) (a ++ b') u.1) u.2).length := by
    show (_ ++ []).length = _
    rw [List.append_nil]
  omega

/-- Bytes after the coded data are always enough. -/
theorem enough_of_fill {C : Nat → Codes} {us : List DataUnit} {fill : List UInt8}
    (h : 8 ≤ fill.length) : EnoughBits C us fill := by
  intro us' u _
  omega

/-! ### Intervals -/

/-- The start of the coded data of an interval. -/
theorem rep_units (C : Nat → Codes) (us : List DataUnit) (fill : List UInt8) {tl : UInt8 × List UInt8}
    (h0 : tl.1 ≠ 0) (h1 : tl.1 ≠ 0xFF) (h2 : (Marker.fromU8 tl.1).isSome) (bs : BitStream)
    (hb : bs.bitsLeft = 0) (hm : bs.marker = none) :
    Rep { bs := bs, rd := unitsBytes C us fill ++ 0xFF :: tl.1 :: tl.2 }
      (unitsBits C (fun _ => 0) us ++
        (List.replicate (padCount (unitsBits C (fun _ => 0) us).length) true ++ bytesBits fill))
      (some tl) := by
  have hs := scan_stuff (packBytes (padBits (unitsBits C (fun _ => 0) us)) ++ fill) tl.1 tl.2 h0 h1
  have e1 : scanData (unitsBytes C us fill ++ 0xFF :: tl.1 :: tl.2) =
      packBytes (padBits (unitsBits C (fun _ => 0) us)) ++ fill := by
    rw [scanData, unitsBytes, hs]
  have e2 : scanEnd (unitsBytes C us fill ++ 0xFF :: tl.1 :: tl.2) = some tl := by
    rw [scanEnd, unitsBytes, hs]
  have := rep_new (unitsBytes C us fill ++ 0xFF :: tl.1 :: tl.2) bs hb hm (by
    rw [e2]
    rintro m' r' h
    cases h
    exact h2)
  rw [e1, e2, show bytesBits (packBytes (padBits (unitsBits C (fun _ => 0) us)) ++ fill) =
    bytesBits (packBytes (padBits (unitsBits C (fun _ => 0) us))) ++ bytesBits fill from
    List.flatMap_append .., bytesBits_packBytes _ (padBits_length _)] at this
  rw [← List.append_assoc]
  exact this

/-- The numbers of MCUs in the intervals, if an interval has `r`. -/
def RegCounts (r : Nat) : List Nat → Prop
  | [] => False
  | [_] => True
  | c :: cs => c = r ∧ 0 < r ∧ RegCounts r cs

section
variable (d : Decoder) (cs : List Component) (C : Nat → Codes) (m : Nat → Nat → Nat → Nat → List Int)
  (fill trailer : List UInt8)

/-- Bytes after the coded data of an interval, when the intervals `cnts` follow. -/
def fillOf (cnts : List Nat) : List UInt8 := if cnts.isEmpty then fill else []

/-- The marker after an interval, and the bytes after it; `cnts` are the intervals to come. -/
def ivTail (q k : Nat) : List Nat → UInt8 × List UInt8
  | [] => (0xD9, trailer)
  | c :: cnts => (UInt8.ofNat (0xD0 + q % 8),
      intervalsBytes C cs.length (mcuShape cs) m fill (q + 1) k (c :: cnts) ++ 0xFF :: 0xD9 :: trailer)

/-- The MCUs from number `k` on. -/
abbrev unitsFrom (k c : Nat) : List DataUnit := mcusUnits cs.length (mcuShape cs) m k c

/-- Bits after the data units of an interval. -/
def ivExtra (k c : Nat) (cnts : List Nat) : List Bool :=
  List.replicate (padCount (unitsBits C (fun _ => 0) (unitsFrom cs m k c)).length) true ++
    bytesBits (fillOf fill cnts)

/-- The reader stands before MCU `j` of interval `q`, which begins with MCU `k` and has `c` MCUs; the
intervals `cnts` follow. -/
structure IvAt (q k c : Nat) (cnts : List Nat) (j : Nat) (t : T) : Prop where
  le : j ≤ c
  inner : cnts ≠ [] → j < c
  ok : IntervalsOk C cs.length (mcuShape cs) m fill k (c :: cnts)
  reg : RegCounts d.restartInterval (c :: cnts)
  at_ : ∃ todo, Count d.restartInterval cnts.isEmpty (cs.length * (c - j)) todo ∧
    UnitsAt d cs C (ivExtra cs C m fill k c cnts) (ivTail cs C m fill trailer q (k + c) cnts)
      (unitsFrom cs m (k + j) (c - j)) t (predsAfter (fun _ => 0) (unitsFrom cs m k j)) todo

/-- The reader stands before MCU `N` of `total`. -/
def ScanAt (total N : Nat) (t : T) : Prop :=
  ∃ q k c cnts j, N = k + j ∧ k + c + cnts.sum = total ∧ IvAt d cs C m fill trailer q k c cnts j t

variable {d cs C m fill trailer}

theorem ivTail_ok (q k : Nat) (cnts : List Nat) : (ivTail cs C m fill trailer q k cnts).1 ≠ 0 ∧
    (ivTail cs C m fill trailer q k cnts).1 ≠ 0xFF ∧
    (Marker.fromU8 (ivTail cs C m fill trailer q k cnts).1).isSome ∧
    TailOk cnts.isEmpty (ivTail cs C m fill trailer q k cnts) := by
  cases cnts with
  | nil =>
    exact ⟨(by decide : (0xD9 : UInt8) ≠ 0), (by decide : (0xD9 : UInt8) ≠ 0xFF),
      (by decide : (Marker.fromU8 0xD9).isSome), rfl⟩
  | cons c cnts =>
    have h : ∀ i : Fin 8, UInt8.ofNat (0xD0 + (i : Nat)) ≠ 0 ∧ UInt8.ofNat (0xD0 + (i : Nat)) ≠ 0xFF ∧
        (Marker.fromU8 (UInt8.ofNat (0xD0 + (i : Nat)))).isSome := by decide +kernel
    obtain ⟨a, b, c⟩ := h ⟨q % 8, by omega⟩
    exact ⟨a, b, c, rst_marker q⟩

theorem intervalsBytes_tail (q k c : Nat) (cnts : List Nat) :
    intervalsBytes C cs.length (mcuShape cs) m fill q k (c :: cnts) ++ 0xFF :: 0xD9 :: trailer =
      unitsBytes C (unitsFrom cs m k c) (fillOf fill cnts) ++
        0xFF :: (ivTail cs C m fill trailer q (k + c) cnts).1 ::
          (ivTail cs C m fill trailer q (k + c) cnts).2 := by
  cases cnts with
  | nil => rfl
  | cons c' cnts => simp [intervalsBytes, ivTail, fillOf]

theorem Spec.IntervalsOk.units {n : Nat} {f : Nat → Nat × Nat} {k c : Nat} {cnts : List Nat}
    (h : IntervalsOk C n f m fill k (c :: cnts)) : UnitsOk C (fun _ => 0) (mcusUnits n f m k c) := by
  cases cnts with
  | nil => exact h.1
  | cons c' cnts => exact h.1

theorem Spec.UnitsOk.append {p : Nat → Int} {a b : List DataUnit} (h : UnitsOk C p (a ++ b)) :
    UnitsOk C (predsAfter p a) b := by
  induction a generalizing p with
  | nil => exact h
  | cons u us ih => exact ih h.2.2

/-- The start of an interval. -/
theorem ivAt_start {q k c : Nat} {cnts : List Nat} {t : T} {todo : Nat}
    (hdec : t.dec = multiDec d cs (fun _ => 0) todo) (hb : t.io.bs.bitsLeft = 0)
    (hm : t.io.bs.marker = none)
    (hrd : t.io.rd = intervalsBytes C cs.length (mcuShape cs) m fill q k (c :: cnts) ++ 0xFF :: 0xD9 :: trailer)
    (hok : IntervalsOk C cs.length (mcuShape cs) m fill k (c :: cnts))
    (hreg : RegCounts d.restartInterval (c :: cnts))
    (hk : Count d.restartInterval cnts.isEmpty (cs.length * c) todo) :
    IvAt d cs C m fill trailer q k c cnts 0 t := by
  refine ⟨Nat.zero_le _, fun hne => ?_, hok, hreg, todo, hk, hdec, hok.units, ?_, fun u _ => Or.inl (by omega)⟩
  · cases cnts with
    | nil => exact absurd rfl hne
    | cons c' cnts => obtain ⟨h1, h2, -⟩ := hreg; omega
  · obtain ⟨h0, h1, h2, -⟩ := ivTail_ok (cs := cs) (C := C) (m := m) (fill := fill) (trailer := trailer)
      q (k + c) cnts
    have := rep_units C (unitsFrom cs m k c) (fillOf fill cnts) h0 h1 h2 t.io.bs hb hm
    rw [← intervalsBytes_tail, ← hrd] at this
    exact this

theorem range_split {n : Nat} {x y : List Nat} (h : List.range n = x ++ y) :
    x.length + y.length = n ∧ x = List.range' 0 x.length ∧ y = List.range' x.length y.length := by
  have hl := congrArg List.length h
  rw [List.length_range, List.length_append] at hl
  have e : List.range n = List.range' 0 x.length ++ List.range' x.length y.length := by
    rw [List.range_eq_range', hl, ← List.range'_append_1, Nat.zero_add]
  rw [h] at e
  obtain ⟨e1, e2⟩ := List.append_inj e (by simp)
  exact ⟨hl.symm, e1, e2⟩

/-- The data units of the components `i` to `i + c - 1` of an MCU, put into slots. -/
theorem slot_groups {N v j : Nat} {val : UnitSlot → List Int}
    (hval : ∀ i a b, val (i, v, j, a, b) = m N i a b) (i c : Nat) (h : i + c ≤ cs.length) :
    slotUnits val (mcuSlots cs v j (List.range' i c)) =
      groupsUnits cs.length (mcuShape cs) m (cs.length * N + i) c := by
  rw [groups_part _ _ _ _ _ h]
  unfold slotUnits mcuSlots
  rw [List.map_flatMap]
  apply List.flatMap_congr
  intro i _
  unfold compSlots samplePairs
  rw [List.map_map, List.map_flatMap]
  apply List.flatMap_congr
  intro a _
  rw [List.map_map]
  apply List.map_congr_left
  intro b _
  show (i, val (i, v, j, a, b)) = _
  rw [hval]

/-- Nothing bad happens in an MCU. -/
theorem calm_mcu {q k c : Nat} {cnts : List Nat} {j : Nat} {t : T}
    (h : IvAt d cs C m fill trailer q k c cnts j t) (hj : j < c) (hn : 0 < cs.length) {v w : Nat}
    {val : UnitSlot → List Int} (hval : ∀ i a b, val (i, v, w, a, b) = m (k + j) i a b) :
    Calm d cs C (ivExtra cs C m fill k c cnts) cnts.isEmpty val v w (List.range cs.length)
      (unitsFrom cs m (k + (j + 1)) (c - (j + 1))) (cs.length * (c - (j + 1)))
      (predsAfter (fun _ => 0) (unitsFrom cs m k j)) := by
  have hall : slotUnits val (mcuSlots cs v w (List.range cs.length)) = unitsFrom cs m (k + j) 1 := by
    rw [List.range_eq_range', slot_groups hval 0 cs.length (by omega),
      show unitsFrom cs m (k + j) 1 = _ from (groups_mcus _ _ _ _).symm]
    rw [Nat.add_zero, Nat.mul_one]
  have hsp : unitsFrom cs m k c = unitsFrom cs m k j ++
      (slotUnits val (mcuSlots cs v w (List.range cs.length)) ++
        unitsFrom cs m (k + (j + 1)) (c - (j + 1))) := by
    rw [hall]
    unfold unitsFrom
    rw [← Nat.add_assoc, ← mcusUnits_append, ← mcusUnits_append]
    congr 1
    omega
  refine ⟨fun hl => ?_, fun hl x y e h0 hr => ?_, fun hl hR => ?_⟩
  · have hc : cnts = [] := by simpa using hl
    subst hc
    have := far_of_enough h.ok.2
    show Far C (ivExtra cs C m fill k c []) _ _
    refine Far.append (a := unitsFrom cs m k j) ?_
    rw [← hsp]
    exact this
  · obtain ⟨c', cnts', rfl⟩ : ∃ c' cnts', cnts = c' :: cnts' := by
      cases cnts with
      | nil => cases hl
      | cons c' cnts' => exact ⟨c', cnts', rfl⟩
    obtain ⟨g1, g2, -⟩ := h.reg
    obtain ⟨-, hleave, -⟩ := h.ok
    obtain ⟨l1, l2, l3⟩ := range_split e
    have hlate := hleave.late
    rw [l2, l3, slot_groups hval _ _ (by omega), slot_groups hval _ _ (by omega),
      ← predsAfter_append]
    rw [show unitsFrom cs m k j = groupsUnits cs.length (mcuShape cs) m (cs.length * k) (cs.length * j) from
      (groups_mcus _ _ _ _).symm, Nat.add_zero, Nat.mul_add, ← groupsUnits_append]
    rw [show unitsFrom cs m (k + (j + 1)) (c - (j + 1)) = groupsUnits cs.length (mcuShape cs) m
      (cs.length * k + cs.length * j + x.length + y.length) (cs.length * (c - (j + 1))) by
        rw [show cs.length * k + cs.length * j + x.length + y.length = cs.length * (k + (j + 1)) by
          rw [Nat.mul_add, Nat.mul_add, Nat.mul_one]; omega]
        exact (groups_mcus _ _ _ _).symm, ← groupsUnits_append]
    obtain ⟨R, hR⟩ : ∃ R, cs.length * (c - (j + 1)) = R := ⟨_, rfl⟩
    have htot : cs.length * c = cs.length * j + x.length + y.length + R := by
      have : c = j + 1 + (c - (j + 1)) := by omega
      rw [this, Nat.mul_add, Nat.mul_add, ← hR, Nat.mul_one]
      omega
    rw [hR] at hr ⊢
    rw [htot] at hlate
    rw [g1] at hlate
    obtain ⟨r, hr'⟩ : ∃ r, d.restartInterval = r := ⟨_, rfl⟩
    rw [hr'] at hr hlate
    obtain ⟨z, hz⟩ : ∃ z, y.length + R = z + r := ⟨y.length + R - r, by omega⟩
    have e1 : cs.length * j + x.length + y.length + R - r = cs.length * j + x.length + z := by omega
    rw [e1] at hlate
    rw [hz, groupsUnits_append (a := z), unitsBits_append, ← predsAfter_append,
      List.length_append, Nat.add_assoc (cs.length * k), ← groupsUnits_append,
      Nat.add_assoc (cs.length * k)]
    omega
  · obtain ⟨c', cnts', rfl⟩ : ∃ c' cnts', cnts = c' :: cnts' := by
      cases cnts with
      | nil => cases hl
      | cons c' cnts' => exact ⟨c', cnts', rfl⟩
    obtain ⟨-, hleave, -⟩ := h.ok
    have hc1 : c - (j + 1) = 0 := by
      rcases Nat.mul_eq_zero.1 hR with h | h
      · omega
      · exact h
    rw [hc1] at hsp ⊢
    refine ⟨rfl, ?_, fun x u e => hleave.ends (unitsFrom cs m k j ++ x) u ?_⟩
    · unfold ivExtra fillOf
      rw [List.length_append, List.length_replicate]
      show _ + 0 ≤ 7
      have := padCount_le (unitsBits C (fun _ => 0) (unitsFrom cs m k c)).length
      omega
    · rw [List.append_assoc, ← e]
      have : unitsFrom cs m (k + (j + 1)) 0 = [] := rfl
      rw [this, List.append_nil] at hsp
      exact hsp

/-- An MCU. -/
theorem scan_step {s : Scan} (hcs : CompsOk s cs) (hT : CompTables d cs C) (hn : 0 < cs.length)
    {val : UnitSlot → List Int} {v w : Nat} (hv : v < s.bias) (hw : w < s.mcuWidth) {total N : Nat}
    (hN : N < total) (hval : ∀ i a b, val (i, v, w, a, b) = m N i a b) {done : List UnitSlot}
    {temp : List (List I16)} {t : T}
    (hS : StripAt cs s d.options.getOutColorspace.numComponents val done temp)
    (hno : ∀ x ∈ mcuSlots cs v w (List.range cs.length), x ∉ done)
    (h : ScanAt d cs C m fill trailer total N t) :
    ∃ t' temp', decodeMcu s v w (List.range cs.length) temp t = (.ok temp', t') ∧ t'.jobs = t.jobs ∧
      ScanAt d cs C m fill trailer total (N + 1) t' ∧
      StripAt cs s d.options.getOutColorspace.numComponents val
        (mcuSlots cs v w (List.range cs.length) ++ done) temp' := by
  obtain ⟨q, k, c, cnts, j, rfl, htot, hi⟩ := h
  have hj : j < c := by
    by_cases hc : cnts = []
    · subst hc
      rw [List.sum_nil] at htot
      omega
    · exact hi.inner hc
  obtain ⟨todo, hk, hU⟩ := hi.at_
  have hF := calm_mcu hi hj hn hval
  have hall : slotUnits val (mcuSlots cs v w (List.range cs.length)) = unitsFrom cs m (k + j) 1 := by
    rw [List.range_eq_range', slot_groups hval 0 cs.length (by omega),
      show unitsFrom cs m (k + j) 1 = _ from (groups_mcus _ _ _ _).symm]
    rw [Nat.add_zero, Nat.mul_one]
  have hsp : unitsFrom cs m (k + j) (c - j) = slotUnits val (mcuSlots cs v w (List.range cs.length)) ++
      unitsFrom cs m (k + (j + 1)) (c - (j + 1)) := by
    rw [hall]
    unfold unitsFrom
    rw [← Nat.add_assoc, ← mcusUnits_append]
    congr 1
    omega
  have hpre : predsAfter (predsAfter (fun _ => 0) (unitsFrom cs m k j))
      (slotUnits val (mcuSlots cs v w (List.range cs.length))) =
      predsAfter (fun _ => 0) (unitsFrom cs m k (j + 1)) := by
    rw [hall, ← predsAfter_append]
    unfold unitsFrom
    rw [← mcusUnits_append]
  rw [hsp] at hU
  have hcnt : cs.length * (c - j) = (List.range cs.length).length + cs.length * (c - (j + 1)) := by
    rw [List.length_range, show c - j = 1 + (c - (j + 1)) by omega, Nat.mul_add, Nat.mul_one]
  rw [hcnt] at hk
  obtain ⟨t', temp', e1, e2, e3, e4⟩ := mcu_step hcs hT hv hw (ivTail_ok q (k + c) cnts).2.2.2
    (List.range cs.length) todo done temp t _ (fun i hi => List.mem_range.1 hi) List.nodup_range
    (by rw [ne_eq, List.range_eq_nil]; omega) hk hS hno hU hF
  refine ⟨t', temp', e1, e2, ?_, e4⟩
  rw [hpre] at e3
  by_cases hgo : cnts.isEmpty = true ∨ 0 < cs.length * (c - (j + 1))
  · obtain ⟨todo', hk', hU'⟩ := e3.stay hgo
    refine ⟨q, k, c, cnts, j + 1, by omega, htot, by omega, fun hne => ?_, hi.ok, hi.reg, todo', hk', hU'⟩
    rcases hgo with h | h
    · exact absurd (List.isEmpty_iff.1 h) hne
    · have : c - (j + 1) ≠ 0 := by
        intro h0
        rw [h0] at h
        simp at h
      omega
  · have hl : cnts.isEmpty = false := by
      cases hx : cnts.isEmpty
      · rfl
      · exact absurd (Or.inl hx) hgo
    have hR : cs.length * (c - (j + 1)) = 0 := by
      by_contra hx
      exact hgo (Or.inr (by omega))
    obtain ⟨g1, g2, g3, g4⟩ := e3.restart hl hR
    have hc : c = j + 1 := by
      rcases Nat.mul_eq_zero.1 hR with h | h <;> omega
    cases cnts with
    | nil => cases hl
    | cons c' cnts =>
      obtain ⟨r1, r2, r3⟩ := hi.reg
      obtain ⟨-, -, o3⟩ := hi.ok
      rw [List.sum_cons] at htot
      refine ⟨q + 1, k + c, c', cnts, 0, by omega, by omega, ivAt_start g1 g2 g3 g4 o3 r3 ?_⟩
      cases cnts with
      | nil => trivial
      | cons c'' cnts =>
        refine ⟨r2, ?_⟩
        have hc' : c' = d.restartInterval := r3.1
        rw [hc']
        obtain ⟨n, hn'⟩ : ∃ n, cs.length = n + 1 := ⟨cs.length - 1, by omega⟩
        rw [hn', Nat.add_mul, Nat.one_mul, show n * d.restartInterval + d.restartInterval - 1 =
          (d.restartInterval - 1) + n * d.restartInterval by omega, Nat.add_mul_mod_self_right,
          Nat.mod_eq_of_lt (by omega)]
        omega

/-- The decoder during the scan. -/
theorem ScanAt.dec {total N : Nat} {t : T} (h : ScanAt d cs C m fill trailer total N t) :
    ∃ p k, t.dec = multiDec d cs p k := by
  obtain ⟨q, k, c, cnts, j, -, -, hi⟩ := h
  obtain ⟨todo, -, hU⟩ := hi.at_
  exact ⟨_, _, hU.dec⟩

/-- Some MCUs of a strip that begins with MCU `N`; `q` of them have been decoded. -/
theorem strip_fold {s : Scan} (hcs : CompsOk s cs) (hT : CompTables d cs C) (hpos : 0 < cs.length)
    (hn : d.inputColorspace.numComponents = cs.length) {total N : Nat} {val : UnitSlot → List Int}
    (hval : ∀ i v w a b, val (i, v, w, a, b) = m (N + (v * s.mcuWidth + w)) i a b) :
    ∀ (l : List (Nat × Nat)) (q : Nat) (done : List UnitSlot) (temp : List (List I16)) (t : T),
      (∀ x ∈ l, x.1 < s.bias ∧ x.2 < s.mcuWidth) → l.Nodup →
      (∀ i x, l[i]? = some x → x.1 * s.mcuWidth + x.2 = q + i) → N + q + l.length ≤ total →
      StripAt cs s d.options.getOutColorspace.numComponents val done temp →
      (∀ x ∈ stripSlots cs l, x ∉ done) →
      ScanAt d cs C m fill trailer total (N + q) t →
      ∃ t' temp', M.foldM l temp (fun temp (vj : Nat × Nat) => M.get >>= fun t : T =>
            decodeMcu s vj.1 vj.2 (List.range t.dec.inputColorspace.numComponents) temp) t =
          (.ok temp', t') ∧ t'.jobs = t.jobs ∧
        ScanAt d cs C m fill trailer total (N + q + l.length) t' ∧
        StripAt cs s d.options.getOutColorspace.numComponents val (stripSlots cs l ++ done) temp'
  | [], q, done, temp, t, _, _, _, _, hS, _, h => ⟨t, temp, rfl, rfl, h, hS⟩
  | (v, w) :: l, q, done, temp, t, hlt, hnd, hnum, hle, hS, hno, h => by
    obtain ⟨hnd1, hnd2⟩ := List.nodup_cons.1 hnd
    rw [List.length_cons] at hle
    have h0 : v * s.mcuWidth + w = q := hnum 0 _ rfl
    obtain ⟨t1, temp1, e1, e2, e3, e4⟩ := scan_step hcs hT hpos (hlt (v, w) (by simp)).1
      (hlt (v, w) (by simp)).2 (by omega) (fun i a b => by rw [hval, h0]) hS
      (fun x hx => hno x (by unfold stripSlots; rw [List.flatMap_cons]; exact List.mem_append_left _ hx)) h
    obtain ⟨t2, temp2, f1, f2, f3, f4⟩ := strip_fold hcs hT hpos hn hval l (q + 1) _ temp1 t1
      (fun x hx => hlt x (by simp [hx])) hnd2 (fun i x hx => by
        have := hnum (i + 1) x (by rw [List.getElem?_cons_succ]; exact hx)
        omega) (by omega) e4 (by
        intro x hx hin
        rcases List.mem_append.1 hin with he | he
        · obtain ⟨-, g2, g3⟩ := mem_mcuSlots he
          obtain ⟨y, hy, hxy⟩ := List.mem_flatMap.1 hx
          obtain ⟨-, g4, g5⟩ := mem_mcuSlots hxy
          have : y = (v, w) := by
            obtain ⟨y1, y2⟩ := y
            dsimp only at g4 g5
            rw [← g4, ← g5, g2, g3]
          subst this
          exact hnd1 hy
        · exact hno x (by
            unfold stripSlots
            rw [List.flatMap_cons]
            exact List.mem_append_right _ hx) he) e3
    refine ⟨t2, temp2, ?_, by rw [f2, e2], ?_, f4.congr fun x => ?_⟩
    · rw [M.foldM]
      have hics : t.dec.inputColorspace.numComponents = cs.length := by
        obtain ⟨p, k, hd⟩ := h.dec
        rw [hd]
        exact hn
      have hstep : (M.get >>= fun t : T => decodeMcu s v w
          (List.range t.dec.inputColorspace.numComponents) temp) t = (.ok temp1, t1) := by
        rw [M.bind_ok (M.get_apply t), hics, e1]
      have := M.bind_ok (f := fun b' => M.foldM l b'
        (fun temp (vj : Nat × Nat) => M.get >>= fun t : T =>
            decodeMcu s vj.1 vj.2 (List.range t.dec.inputColorspace.numComponents) temp)) hstep
      exact this.trans f1
    · rw [List.length_cons, show N + q + (l.length + 1) = N + (q + 1) + l.length by omega]
      exact f3
    · unfold stripSlots
      rw [List.flatMap_cons]
      simp only [List.mem_append]
      tauto

theorem samplePairs_number (V W i : Nat) (x : Nat × Nat) (h : (samplePairs V W)[i]? = some x) :
    x.1 * W + x.2 = i := by
  induction V with
  | zero => simp [samplePairs] at h
  | succ V ih =>
    have e : samplePairs (V + 1) W = samplePairs V W ++ (List.range W).map fun b => (V, b) := by
      unfold samplePairs
      rw [List.range_succ, List.flatMap_append, List.flatMap_cons, List.flatMap_nil, List.append_nil]
    rw [e] at h
    by_cases hi : i < V * W
    · rw [List.getElem?_append_left (by rw [length_samplePairs]; exact hi)] at h
      exact ih h
    · rw [List.getElem?_append_right (by rw [length_samplePairs]; omega), length_samplePairs,
        List.getElem?_map] at h
      obtain ⟨b, hb, rfl⟩ := Option.map_eq_some_iff.1 h
      have hbi : b = i - V * W := by
        have hlt := (List.getElem?_eq_some_iff.1 hb).1
        rw [List.length_range] at hlt
        rw [List.getElem?_range hlt] at hb
        exact (Option.some.inj hb).symm
      show V * W + b = i
      omega

theorem ScanAt.jobs {total N : Nat} {t : T} (h : ScanAt d cs C m fill trailer total N t)
    (jobs : List (Out (List UInt8))) : ScanAt d cs C m fill trailer total N { t with jobs := jobs } := by
  obtain ⟨q, k, c, cnts, j, a, b, hi⟩ := h
  obtain ⟨todo, hk, hU⟩ := hi.at_
  exact ⟨q, k, c, cnts, j, a, b, hi.le, hi.inner, hi.ok, hi.reg, todo, hk, hU.dec, hU.ok, hU.rep, hU.ready⟩

/-- A strip. -/
theorem strip_units {s : Scan} (hcs : CompsOk s cs) (hT : CompTables d cs C) (hpos : 0 < cs.length)
    (hn : d.inputColorspace.numComponents = cs.length) (h3 : cs.length ≤ 3) {total N : Nat} {t : T}
    (hN : N + s.bias * s.mcuWidth ≤ total) (hj : t.jobs.length < s.outLen / s.chunk)
    (h : ScanAt d cs C m fill trailer total N t) :
    ∃ t' temp, strip s t = (.ok (), t') ∧ t'.jobs = t.jobs ++ [stripJob s temp] ∧
      ScanAt d cs C m fill trailer total (N + s.bias * s.mcuWidth) t' ∧
      HoldsMcus cs s d.options.getOutColorspace.numComponents m N temp := by
  obtain ⟨p, todo, hdec⟩ := h.dec
  obtain ⟨val, hval⟩ : ∃ val : UnitSlot → List Int, (fun x : UnitSlot =>
    m (N + (x.2.1 * s.mcuWidth + x.2.2.1)) x.1 x.2.2.2.1 x.2.2.2.2) = val := ⟨_, rfl⟩
  obtain ⟨bufs, hal⟩ : ∃ bufs, allocTemp s t.dec = .ok bufs := by
    unfold allocTemp
    dsimp only
    rw [if_neg]
    · exact ⟨_, rfl⟩
    · rintro ⟨-, hlen⟩
      rw [hdec] at hlen
      unfold multiDec at hlen
      dsimp only at hlen
      rw [List.length_mapIdx] at hlen
      omega
  have hS : StripAt cs s d.options.getOutColorspace.numComponents val [] bufs := by
    intro i c hc hi
    have hb := allocTemp_buf hal (pos := i) (c := { c with dcPred := BitVec.ofInt 32 (p i) })
      (by rw [hdec]; exact multiDec_comp hc) (by rw [hdec]; exact hi)
    dsimp only at hb
    rw [show s.mcuWidth * 64 * c.verticalSample * c.horizontalSample * s.bias =
      64 * (s.mcuWidth * c.verticalSample * c.horizontalSample * s.bias) by ring] at hb
    refine ⟨_, hb, List.length_replicate, fun u hu k hk => ⟨fun hin => absurd hin (by simp), fun _ => ?_⟩⟩
    obtain ⟨k', hk', e⟩ := (hcs c (List.mem_of_getElem? hc)).1.1 u hu
    dsimp only at e
    rw [hk] at e
    have : k = k' := by omega
    subst this
    exact blockAt_zero hk'
  obtain ⟨t1, temp, e1, e2, e3, e4⟩ := strip_fold hcs hT hpos hn (N := N) (val := val)
    (fun i v w a b => by rw [← hval]) (samplePairs s.bias s.mcuWidth) 0 [] bufs t
    (fun x hx => mem_samplePairs.1 hx) (samplePairs_nodup _ _)
    (fun i x hx => by rw [Nat.zero_add]; exact samplePairs_number _ _ _ _ hx)
    (by rw [length_samplePairs]; exact hN) hS (fun x _ => by simp) h
  rw [length_samplePairs, Nat.add_zero] at e3
  have ha : M.ofOut (allocTemp s t.dec) t = (.ok bufs, t) := by rw [hal]; rfl
  have hd : decodeStrip s bufs t = (.ok temp, t1) := e1
  have hsub : submit s temp t1 = (.ok (), { t1 with jobs := t1.jobs ++ [stripJob s temp] }) := by
    unfold submit
    rw [if_pos (by rw [e2]; exact hj)]
    rfl
  refine ⟨{ t1 with jobs := t1.jobs ++ [stripJob s temp] }, temp, ?_, by rw [← e2], e3.jobs _, ?_⟩
  · unfold strip
    rw [M.bind_ok (M.get_apply t), M.bind_ok ha, M.bind_ok hd, hsub]
  · intro i c hc hi
    obtain ⟨buf, b1, b2, b3⟩ := e4 i c hc hi
    refine ⟨buf, b1, b2, fun u hu k hk => ?_⟩
    have := (b3 u hu k hk).1 (List.mem_append_left _ (mem_stripSlots hc hu))
    rw [this, ← hval]

/-- All strips. -/
theorem strips_units {s : Scan} (hcs : CompsOk s cs) (hT : CompTables d cs C) (hpos : 0 < cs.length)
    (hn : d.inputColorspace.numComponents = cs.length) (h3 : cs.length ≤ 3) {total : Nat} :
    ∀ (count N : Nat) (t : T), N + count * (s.bias * s.mcuWidth) ≤ total →
      t.jobs.length + count ≤ s.outLen / s.chunk →
      ScanAt d cs C m fill trailer total N t →
      ∃ (t' : T) (temps : List (List (List I16))), strips s count t = (.ok (), t') ∧
        t'.jobs = t.jobs ++ temps.map (stripJob s) ∧
        temps.length = count ∧ (∃ p' k', t'.dec = multiDec d cs p' k') ∧
        ∀ i temp, temps[i]? = some temp →
          HoldsMcus cs s d.options.getOutColorspace.numComponents m
            (N + i * (s.bias * s.mcuWidth)) temp
  | 0, N, t, _, _, h => ⟨t, [], rfl, by simp, rfl, h.dec, by simp⟩
  | count + 1, N, t, hN, hj, h => by
    rw [Nat.add_one_mul] at hN
    obtain ⟨t1, temp, e1, e2, e3, e4⟩ := strip_units hcs hT hpos hn h3 (by omega) (by omega) h
    obtain ⟨t2, temps, f1, f2, f3, f4, f5⟩ := strips_units hcs hT hpos hn h3 count _ t1 (by omega)
      (by rw [e2, List.length_append, List.length_singleton]; omega) e3
    refine ⟨t2, temp :: temps, ?_, by rw [f2, e2]; simp, by simp [f3], f4, ?_⟩
    · rw [strips, M.bind_ok e1, f1]
    · intro i x hx
      cases i with
      | zero =>
        rw [List.getElem?_cons_zero] at hx
        cases hx
        rw [Nat.zero_mul]
        exact e4
      | succ i =>
        rw [List.getElem?_cons_succ] at hx
        have := f5 i x hx
        rw [Nat.add_one_mul, show N + (i * (s.bias * s.mcuWidth) + s.bias * s.mcuWidth) =
          N + s.bias * s.mcuWidth + i * (s.bias * s.mcuWidth) by omega]
        exact this

end

/-! ### Numbers of MCUs -/

theorem regCounts_replicate {r : Nat} (hr : 0 < r) (x : Nat) : ∀ n, RegCounts r (List.replicate n r ++ [x])
  | 0 => trivial
  | n + 1 => by
    have := regCounts_replicate hr x n
    rw [List.replicate_succ, List.cons_append]
    cases h : List.replicate n r ++ [x] with
    | nil => simp at h
    | cons y ys =>
      rw [h] at this
      exact ⟨rfl, hr, this⟩

theorem intervalCounts_reg (r total : Nat) : RegCounts r (intervalCounts r total) := by
  unfold intervalCounts
  by_cases h : r = 0
  · rw [if_pos h]; trivial
  · rw [if_neg h]; exact regCounts_replicate (by omega) _ _

theorem intervalCounts_sum (r total : Nat) : (intervalCounts r total).sum = total := by
  unfold intervalCounts
  by_cases h : r = 0
  · rw [if_pos h]; simp
  · rw [if_neg h, List.sum_append, List.sum_replicate, List.sum_singleton]
    have := Nat.div_mul_le_self (total - 1) r
    rw [smul_eq_mul]
    omega

/-- The counter at the start of the scan. -/
theorem intervalCounts_start {r total n : Nat} (hn : 0 < n) {c : Nat} {cnts : List Nat}
    (e : intervalCounts r total = c :: cnts) (hr : 0 < r) : Count r cnts.isEmpty (n * c) r := by
  have hreg := intervalCounts_reg r total
  rw [e] at hreg
  cases cnts with
  | nil => trivial
  | cons c' cnts =>
    refine ⟨hr, ?_⟩
    obtain ⟨rfl, -⟩ := hreg
    obtain ⟨k, rfl⟩ : ∃ k, n = k + 1 := ⟨n - 1, by omega⟩
    rw [Nat.add_mul, Nat.one_mul, show k * c + c - 1 = (c - 1) + k * c by omega,
      Nat.add_mul_mod_self_right, Nat.mod_eq_of_lt (by omega)]
    omega

theorem intervalCounts_ne (r total : Nat) : ∃ c cnts, intervalCounts r total = c :: cnts := by
  have := intervalCounts_reg r total
  cases h : intervalCounts r total with
  | nil => rw [h] at this; exact this.elim
  | cons c cnts => exact ⟨c, cnts, rfl⟩

/-- When every interval is fine. -/
theorem intervalsOk_all {C : Nat → Codes} {n : Nat} {f : Nat → Nat × Nat}
    {m : Nat → Nat → Nat → Nat → List Int} {fill : List UInt8} {r : Nat}
    (hu : ∀ k c, UnitsOk C (fun _ => 0) (mcusUnits n f m k c))
    (hb : ∀ k c, EnoughBits C (mcusUnits n f m k c) fill)
    (hl : 0 < r → ∀ k, Leaves C n f m k r) :
    ∀ (cnts : List Nat) (k : Nat), RegCounts r cnts → IntervalsOk C n f m fill k cnts
  | [], _, h => h.elim
  | [c], k, _ => ⟨hu k c, hb k c⟩
  | c :: c' :: cnts, k, h => by
    obtain ⟨h1, h2, h3⟩ := h
    subst h1
    exact ⟨hu k _, hl h2 k, intervalsOk_all hu hb hl (c' :: cnts) _ h3⟩

theorem mem_mcusUnits {n : Nat} {f : Nat → Nat × Nat} {m : Nat → Nat → Nat → Nat → List Int} {k c : Nat}
    {u : DataUnit} (h : u ∈ mcusUnits n f m k c) : ∃ k i a b, u = (i, m k i a b) := by
  unfold mcusUnits mcuUnits at h
  simp only [List.mem_flatMap, List.mem_map] at h
  obtain ⟨k, -, i, -, a, -, b, -, rfl⟩ := h
  exact ⟨k, i, a, b, rfl⟩

/-! ### Shapes that agree -/

section
variable {n : Nat} {f g : Nat → Nat × Nat} (hfg : ∀ i, i < n → f i = g i)
include hfg

theorem mcusUnits_congr (m : Nat → Nat → Nat → Nat → List Int) (k c : Nat) :
    mcusUnits n f m k c = mcusUnits n g m k c := by
  unfold mcusUnits mcuUnits
  congr 1
  funext q
  apply List.flatMap_congr
  intro i hi
  rw [hfg i (List.mem_range.1 hi)]

theorem groupsUnits_congr (hn : 0 < n) (m : Nat → Nat → Nat → Nat → List Int) (k c : Nat) :
    groupsUnits n f m k c = groupsUnits n g m k c := by
  unfold groupsUnits
  congr 1
  funext q
  unfold groupUnits
  rw [hfg _ (Nat.mod_lt _ hn)]

theorem intervalsBytes_congr (C : Nat → Codes) (m : Nat → Nat → Nat → Nat → List Int) (fill : List UInt8) :
    ∀ (cnts : List Nat) (q k : Nat), intervalsBytes C n f m fill q k cnts = intervalsBytes C n g m fill q k cnts
  | [], _, _ => rfl
  | [c], _, _ => by
    show unitsBytes _ _ _ = unitsBytes _ _ _
    rw [mcusUnits_congr hfg]
  | c :: c' :: cnts, q, k => by
    show unitsBytes _ _ _ ++ _ ++ _ = unitsBytes _ _ _ ++ _ ++ _
    rw [mcusUnits_congr hfg, intervalsBytes_congr C m fill (c' :: cnts)]

theorem intervalsOk_congr (hn : 0 < n) (C : Nat → Codes) (m : Nat → Nat → Nat → Nat → List Int)
    (fill : List UInt8) : ∀ (cnts : List Nat) (k : Nat),
      IntervalsOk C n f m fill k cnts → IntervalsOk C n g m fill k cnts
  | [], _, h => h
  | [c], _, h => by
    obtain ⟨h1, h2⟩ := h
    rw [mcusUnits_congr hfg] at h1 h2
    exact ⟨h1, h2⟩
  | c :: c' :: cnts, k, h => by
    obtain ⟨h1, ⟨h2, h3⟩, h4⟩ := h
    rw [mcusUnits_congr hfg] at h1 h2
    rw [groupsUnits_congr hfg hn, groupsUnits_congr hfg hn] at h3
    exact ⟨h1, ⟨h2, h3⟩, intervalsOk_congr hn C m fill (c' :: cnts) _ h4⟩

end

end Zune
