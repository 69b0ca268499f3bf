import Verif.Lemmas.ProgColour
/-! Progressive images with three components: from scan to scan. -/

namespace Zune
open Spec

/-! ### Scan header -/

/-- A component with other Huffman tables if the scan has it. -/
def pickTables (comps : List Nat) (dc ac : Nat → Nat) (j : Nat) (c : Component) : Component :=
  { c with dcHuffTable := if j ∈ comps then dc j else c.dcHuffTable
           acHuffTable := if j ∈ comps then ac j else c.acHuffTable }

theorem withTables_eq (c : Component) {a b : Nat} (ha : a < 4) (hb : b < 4) :
    withTables c (UInt8.ofNat (16 * a + b)) = { c with dcHuffTable := a, acHuffTable := b } := by
  have hhi : (UInt8.ofNat (16 * a + b) >>> 4).toNat = a := by
    have : ∀ a b : Fin 4, (UInt8.ofNat (16 * (a : Nat) + b) >>> 4).toNat = a := by decide
    exact this ⟨a, ha⟩ ⟨b, hb⟩
  have hlo : (UInt8.ofNat (16 * a + b) &&& 0xF).toNat = b := by
    have : ∀ a b : Fin 4, (UInt8.ofNat (16 * (a : Nat) + b) &&& 0xF).toNat = b := by decide
    exact this ⟨a, ha⟩ ⟨b, hb⟩
  unfold withTables
  rw [hhi, hlo]

theorem pickTables_cons {j i : Nat} {comps : List Nat} {dc ac : Nat → Nat} (hj : j ∉ comps)
    (c : Component) :
    pickTables (j :: comps) dc ac i c = pickTables comps dc ac i
      (if i = j then { c with dcHuffTable := dc j, acHuffTable := ac j } else c) := by
  unfold pickTables
  by_cases hi : i = j
  · subst hi
    rw [if_pos List.mem_cons_self, if_pos List.mem_cons_self, if_pos rfl, if_neg hj, if_neg hj]
  · rw [if_neg hi]
    by_cases hm : i ∈ comps
    · rw [if_pos (List.mem_cons_of_mem _ hm), if_pos (List.mem_cons_of_mem _ hm), if_pos hm, if_pos hm]
    · have : i ∉ j :: comps := by
        rw [List.mem_cons]
        exact fun h => h.elim hi hm
      rw [if_neg this, if_neg this, if_neg hm, if_neg hm]

/-- The components of a scan header. -/
theorem sosComponents_list (dc ac : Nat → Nat) (rest : List UInt8) :
    ∀ (comps : List Nat) (i : Nat) (seen : List Bool) (d : Decoder) (c0 c1 c2 : Component),
      d.components = [c0, c1, c2] → d.info.components = 3 → c0.id = 1 → c1.id = 2 → c2.id = 3 →
      comps.Nodup → (∀ j ∈ comps, j < 3 ∧ dc j < 4 ∧ ac j < 4) →
      (∀ j ∈ comps, seen[j + 1]? = some false) → i + comps.length ≤ d.zOrder.length →
      ∃ z : List Nat, sosComponents comps.length i seen ⟨d, (comps.flatMap fun j =>
          [UInt8.ofNat (j + 1), UInt8.ofNat (16 * dc j + ac j)]) ++ rest⟩ =
        (.ok (), ⟨{ d with
          components := [pickTables comps dc ac 0 c0, pickTables comps dc ac 1 c1,
            pickTables comps dc ac 2 c2]
          zOrder := z }, rest⟩) ∧ z.length = d.zOrder.length ∧
        (∀ k, k < i → z[k]? = d.zOrder[k]?) ∧ ∀ k, k < comps.length → z[i + k]? = comps[k]?
  | [], i, seen, d, c0, c1, c2, hc, hi, _, _, _, _, _, _, _ => by
    refine ⟨d.zOrder, ?_, rfl, fun _ _ => rfl, fun k hk => absurd hk (by simp)⟩
    show (Out.ok (), (⟨d, rest⟩ : H)) = _
    have : [pickTables [] dc ac 0 c0, pickTables [] dc ac 1 c1, pickTables [] dc ac 2 c2] = d.components := by
      rw [hc]
      rfl
    rw [this]
  | j :: comps, i, seen, d, c0, c1, c2, hc, hi, h0, h1, h2, hnd, hall, hseen, hz => by
    obtain ⟨hj3, hdj, haj⟩ := hall j List.mem_cons_self
    have hnd' := List.nodup_cons.1 hnd
    have hjn : (UInt8.ofNat (j + 1)).toNat = j + 1 := by
      have : ∀ j : Fin 3, (UInt8.ofNat (j + 1)).toNat = j + 1 := by decide
      exact this ⟨j, hj3⟩
    rw [List.length_cons] at hz
    have step := sos_step (d := d) (n := comps.length) (i := i) (j := j) (seen := seen)
      (id := UInt8.ofNat (j + 1)) (y := UInt8.ofNat (16 * dc j + ac j))
      (rest := (comps.flatMap fun j => [UInt8.ofNat (j + 1), UInt8.ofNat (16 * dc j + ac j)]) ++ rest)
      (by rw [hjn, hc]; simp only [List.length_cons, List.length_nil]; omega)
      (by rw [hjn]; exact hseen j List.mem_cons_self)
      (by
        rw [hc, hi]
        exact fun rd => findComponent_three h0 h1 h2 rd ⟨j, hj3⟩)
      (by rw [hi]; exact Nat.ne_of_lt hj3)
    rw [List.length_cons, List.flatMap_cons]
    rw [hjn] at step
    obtain ⟨d', hd'⟩ : ∃ d', ({ d with
      components := d.components.modify j (withTables · (UInt8.ofNat (16 * dc j + ac j)))
      zOrder := d.zOrder.set i j } : Decoder) = d' := ⟨_, rfl⟩
    rw [hd'] at step
    have hcs : d'.components = [
        if 0 = j then { c0 with dcHuffTable := dc j, acHuffTable := ac j } else c0,
        if 1 = j then { c1 with dcHuffTable := dc j, acHuffTable := ac j } else c1,
        if 2 = j then { c2 with dcHuffTable := dc j, acHuffTable := ac j } else c2] := by
      rw [← hd']
      dsimp only
      rw [hc]
      have hj' : j = 0 ∨ j = 1 ∨ j = 2 := by omega
      rcases hj' with rfl | rfl | rfl
      · show [withTables c0 _, c1, c2] = _
        rw [withTables_eq c0 hdj haj]
        rfl
      · show [c0, withTables c1 _, c2] = _
        rw [withTables_eq c1 hdj haj]
        rfl
      · show [c0, c1, withTables c2 _] = _
        rw [withTables_eq c2 hdj haj]
        rfl
    have hid : ∀ (n : Nat) (c : Component),
        (if n = j then { c with dcHuffTable := dc j, acHuffTable := ac j } else c).id = c.id := by
      intro n c
      split <;> rfl
    obtain ⟨z, e1, e2, e3, e4⟩ := sosComponents_list dc ac rest comps (i + 1) (seen.set (j + 1) true) d' _ _ _
      hcs (by rw [← hd']; exact hi) (by rw [hid]; exact h0) (by rw [hid]; exact h1) (by rw [hid]; exact h2)
      hnd'.2 (fun k hk => hall k (List.mem_cons_of_mem _ hk))
      (fun k hk => by
        have : j + 1 ≠ k + 1 := fun e => hnd'.1 (by rw [show j = k by omega]; exact hk)
        rw [List.getElem?_set_ne this]
        exact hseen k (List.mem_cons_of_mem _ hk))
      (by rw [← hd']; show _ ≤ (d.zOrder.set i j).length; rw [List.length_set]; omega)
    have hzl : d'.zOrder = d.zOrder.set i j := by rw [← hd']
    rw [hzl] at e2 e3
    refine ⟨z, ?_, by rw [e2, List.length_set], fun k hk => ?_, fun k hk => ?_⟩
    · refine Eq.trans step (Eq.trans e1 ?_)
      rw [pickTables_cons hnd'.1, pickTables_cons hnd'.1, pickTables_cons hnd'.1, ← hd']
    · rw [e3 k (by omega), List.getElem?_set_ne (by omega)]
    · cases k with
      | zero =>
        rw [Nat.add_zero, e3 i (by omega), List.getElem?_set_self (by omega)]
        rfl
      | succ k =>
        have := e4 k (by omega)
        rw [show i + (k + 1) = i + 1 + k by omega, this]
        rfl

/-- A scan header. -/
theorem sos_list (d : Decoder) {c0 c1 c2 : Component} (hc : d.components = [c0, c1, c2])
    (h0 : c0.id = 1) (h1 : c1.id = 2) (h2 : c2.id = 3) (hi : d.info.components = 3)
    (hz : 3 ≤ d.zOrder.length) {s : CScan} (hne : s.comps ≠ []) (hnd : s.comps.Nodup)
    (hall : ∀ j ∈ s.comps, j < 3 ∧ s.dcDest j < 4 ∧ s.acDest j < 4) (hss : s.ss < 64) (hse : s.se < 64)
    (hah : s.ah ≤ 13) (hal : s.al ≤ 13) (rest : List UInt8) :
    ∃ z : List Nat, parseSos ⟨d, s.header ++ rest⟩ = (.ok (), ⟨{ d with
        numScans := s.comps.length
        components := [pickTables s.comps s.dcDest s.acDest 0 c0,
          pickTables s.comps s.dcDest s.acDest 1 c1, pickTables s.comps s.dcDest s.acDest 2 c2]
        zOrder := z, specStart := s.ss, specEnd := s.se, succHigh := s.ah, succLow := s.al }, rest⟩) ∧
      z.length = d.zOrder.length ∧ ∀ k, k < s.comps.length → z[k]? = s.comps[k]? := by
  have hl3 : s.comps.length ≤ 3 := by
    have := hnd.subperm (l₂ := List.range 3) fun i hi => List.mem_range.2 (hall i hi).1
    simpa using this.length_le
  have hl1 : 1 ≤ s.comps.length := by
    rcases hs : s.comps with _ | ⟨a, l⟩
    · exact absurd hs hne
    · simp
  have hs64 : ∀ n : Fin 64, (UInt8.ofNat n &&& 63).toNat = n := by decide
  have e1 := hs64 ⟨s.ss, hss⟩
  have e2 := hs64 ⟨s.se, hse⟩
  have e3 : (UInt8.ofNat (16 * s.ah + s.al) >>> 4).toNat = s.ah := by
    have : ∀ a b : Fin 14, (UInt8.ofNat (16 * (a : Nat) + b) >>> 4).toNat = a := by decide
    exact this ⟨s.ah, by omega⟩ ⟨s.al, by omega⟩
  have e4 : (UInt8.ofNat (16 * s.ah + s.al) &&& 0xF).toNat = s.al := by
    have : ∀ a b : Fin 14, (UInt8.ofNat (16 * (a : Nat) + b) &&& 0xF).toNat = b := by decide
    exact this ⟨s.ah, by omega⟩ ⟨s.al, by omega⟩
  dsimp only at e1 e2
  obtain ⟨n, hn⟩ : ∃ n, s.comps.length = n := ⟨_, rfl⟩
  obtain ⟨b1, hb1⟩ : ∃ b, UInt8.ofNat n = b := ⟨_, rfl⟩
  obtain ⟨b2, hb2⟩ : ∃ b, UInt8.ofNat (6 + 2 * n) = b := ⟨_, rfl⟩
  obtain ⟨len, hlen⟩ : ∃ l, (0 : UInt8).toUInt16 <<< 8 ||| b2.toUInt16 = l := ⟨_, rfl⟩
  have hn3 : (UInt8.ofNat n).toNat = n ∧ ((0 : UInt8).toUInt16 <<< 8 ||| (UInt8.ofNat (6 + 2 * n)).toUInt16).toNat = 6 + 2 * n := by
    have : ∀ n : Fin 4, (UInt8.ofNat n).toNat = n ∧
        ((0 : UInt8).toUInt16 <<< 8 ||| (UInt8.ofNat (6 + 2 * (n : Nat))).toUInt16).toNat = 6 + 2 * n := by decide
    exact this ⟨n, by omega⟩
  rw [hb1, hb2, hlen] at hn3
  obtain ⟨x1, hx1⟩ : ∃ y, UInt8.ofNat s.ss = y := ⟨_, rfl⟩
  obtain ⟨x2, hx2⟩ : ∃ y, UInt8.ofNat s.se = y := ⟨_, rfl⟩
  obtain ⟨x3, hx3⟩ : ∃ y, UInt8.ofNat (16 * s.ah + s.al) = y := ⟨_, rfl⟩
  rw [hx1] at e1
  rw [hx2] at e2
  rw [hx3] at e3 e4
  obtain ⟨body, hbody⟩ : ∃ b, (s.comps.flatMap fun i =>
      [UInt8.ofNat (i + 1), UInt8.ofNat (16 * s.dcDest i + s.acDest i)]) = b := ⟨_, rfl⟩
  have hh : s.header ++ rest = 0 :: b2 :: b1 ::
      (body ++ ([x1, x2, x3] ++ rest)) := by
    unfold CScan.header
    rw [hbody, hn, hx1, hx2, hx3, hb1, hb2]
    simp
  obtain ⟨z, f1, f2, -, f4⟩ := sosComponents_list s.dcDest s.acDest ([x1, x2, x3] ++ rest) s.comps 0
    (List.replicate MAX_COMPONENTS false) { d with numScans := b1.toNat } c0 c1 c2 hc hi h0 h1 h2
    hnd hall (fun j hj => by
      have := (hall j hj).1
      rw [List.getElem?_replicate_of_lt (by unfold MAX_COMPONENTS; omega)])
    (by show _ ≤ d.zOrder.length; omega)
  refine ⟨z, ?_, f2, fun k hk => by have := f4 k hk; rwa [Nat.zero_add] at this⟩
  rw [hbody, hn] at f1
  rw [hh]
  unfold parseSos
  have r1 : readU16 .exhausted ⟨d, 0 :: b2 :: b1 ::
      (body ++ ([x1, x2, x3] ++ rest))⟩ = (.ok len,
        ⟨d, b1 :: (body ++ ([x1, x2, x3] ++ rest))⟩) := by rw [← hlen]; rfl
  have r2 : readByte ⟨d, b1 :: (body ++ ([x1, x2, x3] ++ rest))⟩ =
    (.ok b1, ⟨d, body ++ ([x1, x2, x3] ++ rest)⟩) := rfl
  have r3 : ∀ d, readByte ⟨d, [x1, x2, x3] ++ rest⟩ = (.ok x1, ⟨d, [x2, x3] ++ rest⟩) := fun _ => rfl
  have r4 : ∀ d, readByte ⟨d, [x2, x3] ++ rest⟩ = (.ok x2, ⟨d, [x3] ++ rest⟩) := fun _ => rfl
  have r5 : ∀ d, readByte ⟨d, [x3] ++ rest⟩ = (.ok x3, ⟨d, rest⟩) := fun _ => rfl
  rw [M.bind_ok r1, M.bind_ok r2, M.bind_ok (modDec_apply _ _ _), if_neg (by rw [hn3.1, hn3.2]; simp),
    if_neg (by rw [hn3.1]; omega), M.bind_ok (getDec_apply _ _)]
  dsimp only
  rw [if_neg (by rw [hi]; decide)]
  rw [hn3.1] at f1 ⊢
  obtain ⟨d2, hd2⟩ : ∃ d2, ({ d with
    numScans := n
    components := [pickTables s.comps s.dcDest s.acDest 0 c0,
      pickTables s.comps s.dcDest s.acDest 1 c1, pickTables s.comps s.dcDest s.acDest 2 c2]
    zOrder := z } : Decoder) = d2 := ⟨_, rfl⟩
  have hlast : ({ d with
        numScans := s.comps.length
        components := [pickTables s.comps s.dcDest s.acDest 0 c0,
          pickTables s.comps s.dcDest s.acDest 1 c1, pickTables s.comps s.dcDest s.acDest 2 c2]
        zOrder := z, specStart := s.ss, specEnd := s.se, succHigh := s.ah, succLow := s.al } : Decoder) =
      { d2 with specStart := s.ss, specEnd := s.se, succHigh := s.ah, succLow := s.al } := by
    rw [← hd2, hn]
  rw [hlast]
  have f1 : sosComponents n 0 (List.replicate MAX_COMPONENTS false)
      ⟨{ d with numScans := n }, body ++ ([x1, x2, x3] ++ rest)⟩ = (.ok (), ⟨d2, [x1, x2, x3] ++ rest⟩) := by
    rw [← hd2]
    exact f1
  clear hlast hd2
  rw [M.bind_ok f1, M.bind_ok (r3 _), M.bind_ok (modDec_apply _ _ _), M.bind_ok (r4 _),
    M.bind_ok (modDec_apply _ _ _), M.bind_ok (r5 _), M.bind_ok (modDec_apply _ _ _),
    e1, e2, e3, e4, if_neg (by omega), M.bind_ok (modDec_apply _ _ _)]
  have hf : ∀ t : H, M.failIf (decide (s.al > 13)) .sof t = (.ok (), t) := by
    intro t
    have h : decide (s.al > 13) = false := decide_eq_false (by omega)
    rw [h]
    rfl
  exact hf _

/-! ### The decoder between two scans -/

namespace Spec

/-- A scan that can be decoded. -/
structure CScan.Valid (s : CScan) (w h fh fv : Nat) (B : Nat → Nat → Nat → List Int) (tabs : Tabs)
    (lev : Nat → Nat → Option Nat) : Prop where
  tables : ∀ t ∈ s.tables, t.Valid
  dest : ∀ i ∈ s.comps, s.dcDest i < 4 ∧ s.acDest i < 4
  ah : s.ah ≤ 13
  al : s.al ≤ 13
  data : s.Data w h fh fv B (s.tables.foldl Tabs.define tabs) lev

/-- The scans lead from `lev` to `lev'`. -/
def CScript (w h fh fv : Nat) (B : Nat → Nat → Nat → List Int) :
    Tabs → (Nat → Nat → Option Nat) → List CScan → (Nat → Nat → Option Nat) → Prop
  | _, lev, [], lev' => lev' = lev
  | tabs, lev, s :: rest, lev' => s.Valid w h fh fv B tabs lev ∧
      CScript w h fh fv B (s.tables.foldl Tabs.define tabs) (s.level lev) rest lev'

/-- Number of data units of some scans. -/
def scansUnits (w h fh fv : Nat) (scans : List CScan) : Nat :=
  (scans.map fun s => s.units w h fh fv).sum

/-- What follows a scan: further scans and the end of the image. -/
def cscansBytes (after : List UInt8) (scans : List CScan) : List UInt8 :=
  scans.flatMap CScan.bytes ++ after

end Spec

/-- Parts of the decoder that scans leave alone. -/
structure DecKeep (d : Decoder) (f : IdctFn) (cf : ColorFn) (cpu : Cpu) (o : Options) : Prop where
  idct : d.idctFn = f
  color : d.colorFn = cf
  cpu : d.cpu = cpu
  options : d.options = o

/-- What holds between two scans. -/
def CInv (w h fh fv : Nat) (qt : Nat → List Nat) (f : IdctFn) (cf : ColorFn) (cpu : Cpu) (o : Options)
    (tabs : Tabs) (budget : Nat) (d : Decoder) : Prop :=
  ∃ c0 c1 c2, ProgColour d c0 c1 c2 w h fh fv ∧
    (∀ i c, [c0, c1, c2][i]? = some c → c.quantTable = qt i) ∧ DecKeep d f cf cpu o ∧ budget ≤ d.todo ∧
    d.dcTables.length = 4 ∧ d.acTables.length = 4 ∧
    ∀ k, k < 4 → Slot (tabs true k) true d.dcTables[k]? ∧ Slot (tabs false k) false d.acTables[k]?

theorem Spec.CScan.Data.comps {s : CScan} {w h fh fv : Nat} {B : Nat → Nat → Nat → List Int} {tabs : Tabs}
    {lev : Nat → Nat → Option Nat} (hd : s.Data w h fh fv B tabs lev) :
    s.comps ≠ [] ∧ s.comps.Nodup ∧ (∀ i ∈ s.comps, i < 3) ∧ s.ss < 64 ∧ s.se < 64 := by
  rcases hd with ⟨i, hi, hi3, hs⟩ | ⟨h2, hnd, hi3, hss, hse, -⟩
  · obtain ⟨b1, b2⟩ := scanData_bounds hs
    rw [hi]
    exact ⟨by simp, by simp, by simpa using hi3, b1, b2⟩
  · refine ⟨?_, hnd, hi3, by omega, by omega⟩
    intro h
    rw [h] at h2
    simp at h2

section
variable {w h fh fv : Nat} {qt : Nat → List Nat} {f : IdctFn} {cf : ColorFn} {cpu : Cpu} {o : Options}
  {tabs : Tabs} {budget : Nat}

theorem CInv.define {d : Decoder} (hi : CInv w h fh fv qt f cf cpu o tabs budget d) {t : Dht}
    (V : t.Valid) : ∃ d', SegOk t.segment.marker t.segment.payload d d' ∧
      CInv w h fh fv qt f cf cpu o (tabs.define t) budget d' := by
  obtain ⟨c0, c1, c2, R, h1, h2, h4, h5, h6, h7⟩ := hi
  obtain ⟨tab, ht, eb⟩ := table_of t.isDc true V.len V.sum V.max V.code V.small
  refine ⟨setTable d t.isDc t.dest tab, dht_one d t.isDc V.dest V.len V.sum V.max
    (by rw [R.prog]; exact ht.table), c0, c1, c2, ?_, h1, ?_, ?_, slots_set V ht eb h5 h6 h7⟩
  · unfold setTable
    split
    · exact { frame := ⟨R.frame.width, R.frame.height, R.frame.wpos, R.frame.hpos, R.frame.fpos,
                R.frame.hMax, R.frame.vMax, R.frame.inter, R.frame.ratio, R.frame.mcuX, R.frame.mcuY,
                R.frame.comps⟩
              dims := R.dims, luma := R.luma, chroma := R.chroma
              comps := R.comps, inCs := R.inCs, fh2 := R.fh2, fv2 := R.fv2, wLe := R.wLe, hLe := R.hLe
              id0 := R.id0, id1 := R.id1, id2 := R.id2, icomp := R.icomp, prog := R.prog, zlen := R.zlen }
    · exact { frame := ⟨R.frame.width, R.frame.height, R.frame.wpos, R.frame.hpos, R.frame.fpos,
                R.frame.hMax, R.frame.vMax, R.frame.inter, R.frame.ratio, R.frame.mcuX, R.frame.mcuY,
                R.frame.comps⟩
              dims := R.dims, luma := R.luma, chroma := R.chroma
              comps := R.comps, inCs := R.inCs, fh2 := R.fh2, fv2 := R.fv2, wLe := R.wLe, hLe := R.hLe
              id0 := R.id0, id1 := R.id1, id2 := R.id2, icomp := R.icomp, prog := R.prog, zlen := R.zlen }
  · unfold setTable; split <;> exact ⟨h2.1, h2.2, h2.3, h2.4⟩
  · refine Nat.le_trans h4 (Nat.le_of_eq ?_); unfold setTable; split <;> rfl

theorem CInv.defines : ∀ {ts : List Dht} {tabs : Tabs} {d : Decoder},
    CInv w h fh fv qt f cf cpu o tabs budget d → (∀ t ∈ ts, t.Valid) →
    ∃ d', SegsOk (ts.map Dht.segment) d d' ∧
      CInv w h fh fv qt f cf cpu o (ts.foldl Tabs.define tabs) budget d'
  | [], _, d, hi, _ => ⟨d, rfl, hi⟩
  | t :: ts, _, d, hi, hv => by
    obtain ⟨d1, e1, h1⟩ := hi.define (hv t List.mem_cons_self)
    obtain ⟨d2, e2, h2⟩ := CInv.defines h1 fun t ht => hv t (List.mem_cons_of_mem _ ht)
    exact ⟨d2, ⟨d1, e1, e2⟩, h2⟩

/-- What a scan header leaves. -/
def AfterSos (s : CScan) (d : Decoder) : Prop :=
  d.specStart = s.ss ∧ d.specEnd = s.se ∧ d.succHigh = s.ah ∧ d.succLow = s.al ∧
  d.numScans = s.comps.length ∧ (∀ k, k < s.comps.length → d.zOrder[k]? = s.comps[k]?) ∧
  ∀ i ∈ s.comps, ∀ c, d.components[i]? = some c → c.dcHuffTable = s.dcDest i ∧ c.acHuffTable = s.acDest i

/-- The decoder after a scan header. -/
theorem CInv.sos {d : Decoder} (hi : CInv w h fh fv qt f cf cpu o tabs budget d) {s : CScan}
    (hne : s.comps ≠ []) (hnd : s.comps.Nodup) (h3 : ∀ i ∈ s.comps, i < 3)
    (hdest : ∀ i ∈ s.comps, s.dcDest i < 4 ∧ s.acDest i < 4) (hss : s.ss < 64) (hse : s.se < 64)
    (hah : s.ah ≤ 13) (hal : s.al ≤ 13) (rest : List UInt8) :
    ∃ d', parseSos ⟨d, s.header ++ rest⟩ = (.ok (), ⟨d', rest⟩) ∧
      CInv w h fh fv qt f cf cpu o tabs budget d' ∧ AfterSos s d' := by
  obtain ⟨c0, c1, c2, R, h1, h2, h4, h5, h6, h7⟩ := hi
  obtain ⟨z, e1, e2, e3⟩ := sos_list d R.comps R.id0 R.id1 R.id2 R.icomp R.zlen hne hnd
    (fun j hj => ⟨h3 j hj, hdest j hj⟩) hss hse hah hal rest
  obtain ⟨s1, s2, s3, s4, s5⟩ := R.shape
  have g1 := s5 c1 (by simp)
  have g2 := s5 c2 (by simp)
  refine ⟨_, e1, ⟨pickTables s.comps s.dcDest s.acDest 0 c0, pickTables s.comps s.dcDest s.acDest 1 c1,
    pickTables s.comps s.dcDest s.acDest 2 c2, ?_, ?_, ⟨h2.1, h2.2, h2.3, h2.4⟩, h4, h5, h6, h7⟩, rfl, rfl,
    rfl, rfl, rfl, e3, ?_⟩
  · have hch : ∀ x ∈ [pickTables s.comps s.dcDest s.acDest 1 c1, pickTables s.comps s.dcDest s.acDest 2 c2],
        x.componentId ≠ .y := by
      intro x hx
      rcases List.mem_cons.1 hx with rfl | hx
      · exact R.chroma c1 (by simp)
      · rw [List.mem_singleton.1 hx]
        exact R.chroma c2 (by simp)
    refine { frame := ?F, comps := rfl, dims := dims_of_frame ?F rfl R.luma hch, inCs := R.inCs, fh2 := R.fh2,
             fv2 := R.fv2, wLe := R.wLe, hLe := R.hLe, luma := R.luma, chroma := hch,
             id0 := R.id0, id1 := R.id1, id2 := R.id2, icomp := R.icomp, prog := R.prog
             zlen := by show 3 ≤ z.length; rw [e2]; exact R.zlen }
    exact { width := R.frame.width, height := R.frame.height, wpos := R.frame.wpos, hpos := R.frame.hpos
            fpos := R.frame.fpos, hMax := R.frame.hMax, vMax := R.frame.vMax, inter := R.frame.inter
            ratio := R.frame.ratio, mcuX := R.frame.mcuX, mcuY := R.frame.mcuY
            comps := ⟨_, _, rfl, s1, s2, s3, s4, by
              intro x hx
              rcases List.mem_cons.1 hx with rfl | hx
              · exact g1
              · rw [List.mem_singleton.1 hx]
                exact g2⟩ }
  · intro i c hc
    match i, hc with
    | 0, hc => cases hc; exact h1 0 c0 rfl
    | 1, hc => cases hc; exact h1 1 c1 rfl
    | 2, hc => cases hc; exact h1 2 c2 rfl
  · intro i hi c hc
    match i, hi, hc with
    | 0, hi, hc => cases hc; exact ⟨if_pos hi, if_pos hi⟩
    | 1, hi, hc => cases hc; exact ⟨if_pos hi, if_pos hi⟩
    | 2, hi, hc => cases hc; exact ⟨if_pos hi, if_pos hi⟩

/-- One scan, from its data on. -/
theorem CInv.scan {d : Decoder} {s : CScan}
    (hi : CInv w h fh fv qt f cf cpu o tabs (s.units w h fh fv + budget) d) (hb : 1 ≤ budget)
    {B : Nat → Nat → Nat → List Int} {lev : Nat → Nat → Option Nat} (hdata : s.Data w h fh fv B tabs lev)
    (hdest : ∀ i ∈ s.comps, s.dcDest i < 4 ∧ s.acDest i < 4) (hal : s.al ≤ 13) (hs : AfterSos s d)
    (hblk : ∀ i r k, i < 3 → r < ownRows h fv i → k < ownCols w fh i → BlockOk (B i r k))
    {m : UInt8} {r : List UInt8} (m0 : m ≠ 0) (mf : m ≠ 0xFF) (mk : (Marker.fromU8 m).isSome)
    {t : T} (hd : t.dec = d) (hlow : t.io.bs.succLow = d.succLow)
    (hstart : t.io.bs.specStart = d.specStart) (hstop : t.io.bs.specEnd = d.specEnd)
    (hrd : t.io.rd = stuffBytes (packBytes (padBits s.bits)) ++ 0xFF :: m :: r)
    {bufs : List (List I16)} (hbufs : ColourHolds w h fh fv B lev bufs) :
    ∃ bufs' t', parseEntropy bufs t = (.ok bufs', t') ∧ ColourHolds w h fh fv B (s.level lev) bufs' ∧
      CInv w h fh fv qt f cf cpu o tabs budget t'.dec ∧
      Rep t'.io (List.replicate (padCount s.bits.length) true) (some (m, r)) ∧
      (s.ss = 0 → s.ah = 0 → ∀ x ∈ s.lastCode w h fh fv B,
        t'.io.bs.marker = none → 16 ≤ t'.io.bs.bitsLeft + x.length) := by
  obtain ⟨c0, c1, c2, R, h1, h2, h4, h5, h6, h7⟩ := hi
  obtain ⟨e1, e2, e3, e4, e5, e6, e7⟩ := hs
  rw [R.comps] at e7
  obtain ⟨bufs', t', p, n, a1, a2, a3, a4, a5, a6⟩ := colour_scan R hdata e1 e2 e3 e4 e5 e6 e7 hdest hal h7
    hblk hb h4 m0 mf mk hd hlow hstart hstop hrd hbufs
  refine ⟨bufs', t', a1, a2, ?_, a5, a6⟩
  rw [a3]
  refine ⟨_, _, _, R.multi p n, ?_, ⟨h2.1, h2.2, h2.3, h2.4⟩, a4, h5, h6, h7⟩
  intro i c hc
  match i, hc with
  | 0, hc => cases hc; exact h1 0 c0 rfl
  | 1, hc => cases hc; exact h1 1 c1 rfl
  | 2, hc => cases hc; exact h1 2 c2 rfl

/-! ### All scans -/

theorem cscansBytes_head {after : List UInt8} (ha : Stops after) (scans : List CScan) :
    ∃ m r mk, cscansBytes after scans = 0xFF :: m :: r ∧ Marker.fromU8 m = some mk ∧ m ≠ 0 ∧
      m ≠ 0xFF := by
  cases scans with
  | nil =>
    obtain ⟨m, r, mk, e, hk, -, -⟩ := ha
    refine ⟨m, r, mk, e, hk, ?_, ?_⟩
    · rintro rfl
      revert hk
      simp [show Marker.fromU8 0 = none by decide]
    · rintro rfl
      revert hk
      simp [show Marker.fromU8 255 = none by decide]
  | cons s rest =>
    rcases ht : s.tables with _ | ⟨x, ts⟩
    · rw [cscansBytes, List.flatMap_cons, CScan.bytes, ht]
      exact ⟨0xDA, _, .sos, rfl, by decide, by decide, by decide⟩
    · rw [cscansBytes, List.flatMap_cons, CScan.bytes, ht]
      exact ⟨0xC4, _, .dht, rfl, by decide, by decide, by decide⟩

/-- Fuel for the scans. -/
def cscansFuel (scans : List CScan) : Nat := (scans.map fun s => s.tables.length + 1).sum + 1

theorem cscansFuel_le {after : List UInt8} (ha : Stops after) (scans : List CScan) :
    cscansFuel scans + 1 ≤ (cscansBytes after scans).length := by
  have h0 : 2 ≤ after.length := by
    obtain ⟨m, r, mk, e, -⟩ := ha
    rw [e]
    simp
  have h1 : ∀ ts : List Dht, ts.length ≤ ((ts.map Dht.segment).flatMap Segment.bytes).length := by
    intro ts
    induction ts with
    | nil => simp
    | cons t ts ih =>
      rw [List.map_cons, List.flatMap_cons, List.length_append, Segment.bytes]
      simp only [List.length_cons]
      omega
  unfold cscansBytes cscansFuel
  induction scans with
  | nil => simpa using h0
  | cons s rest ih =>
    have := h1 s.tables
    rw [List.map_cons, List.sum_cons, List.flatMap_cons, CScan.bytes]
    simp only [List.length_append, List.length_cons] at ih ⊢
    omega

/-- The scans after the first one. -/
theorem scanLoop_cscript {B : Nat → Nat → Nat → List Int}
    (hblk : ∀ i r k, i < 3 → r < ownRows h fv i → k < ownCols w fh i → BlockOk (B i r k))
    {levEnd : Nat → Nat → Option Nat} {after : List UInt8} (ha : Stops after) :
    ∀ (scans : List CScan) (tabs : Tabs) (lev : Nat → Nat → Option Nat) (seen : Nat) (t : T) (m : UInt8)
      (r : List UInt8) (mk : Marker) (fuel : Nat) (bufs : List (List I16)),
      CScript w h fh fv B tabs lev scans levEnd →
      CInv w h fh fv qt f cf cpu o tabs (scansUnits w h fh fv scans + 1) t.dec →
      ColourHolds w h fh fv B lev bufs →
      cscansBytes after scans = 0xFF :: m :: r → Marker.fromU8 m = some mk → t.io.rd = r →
      t.io.bs.marker = none → cscansFuel scans ≤ fuel → seen + scans.length ≤ o.getMaxScans →
      ∃ bufs' t' tabs', scanLoop fuel seen mk bufs t = (.ok bufs', t') ∧
        ColourHolds w h fh fv B levEnd bufs' ∧ CInv w h fh fv qt f cf cpu o tabs' 1 t'.dec
  | [], tabs, lev, seen, t, m, r, mk, fuel, bufs, hs, hi, hH, hb, hk, hr, hn, hf, hx => by
    have hs : levEnd = lev := hs
    subst hs
    obtain ⟨m', r', mk', e', hk', hd, hS⟩ := id ha
    have hb : after = 0xFF :: m :: r := hb
    rw [e'] at hb
    cases hb
    rw [hk'] at hk
    cases hk
    obtain ⟨fuel, rfl⟩ : ∃ n, fuel = n + 1 := ⟨fuel - 1, by
      have : cscansFuel [] = 1 := rfl
      omega⟩
    refine ⟨bufs, t, tabs, scanLoop_stop hd hS _ _ _ _, hH, ?_⟩
    simpa [scansUnits] using hi
  | s :: rest, tabs, lev, seen, t, m, r, mk, fuel, bufs, hs, hi, hH, hb, hk, hr, hn, hf, hx => by
    obtain ⟨V, hrest⟩ := hs
    obtain ⟨hne, hnd, h3, hss64, hse64⟩ := V.data.comps
    have hfu : cscansFuel (s :: rest) = (cscansFuel rest + 1) + s.tables.length := by
      unfold cscansFuel
      rw [List.map_cons, List.sum_cons]
      omega
    obtain ⟨fuel, rfl⟩ : ∃ n, fuel = n + 1 + s.tables.length := ⟨fuel - 1 - s.tables.length, by omega⟩
    obtain ⟨d1, hsegs, hi1⟩ := hi.defines V.tables
    -- the table definitions
    obtain ⟨tail, htail⟩ : ∃ x, cscansBytes after rest = x := ⟨_, rfl⟩
    have hb' : (s.tables.map Dht.segment).flatMap Segment.bytes ++ 0xFF :: 0xDA ::
        (s.header ++ (stuffBytes (packBytes (padBits s.bits)) ++ tail)) = 0xFF :: m :: r := by
      rw [← hb, ← htail]
      unfold cscansBytes
      rw [List.flatMap_cons, CScan.bytes]
      simp
    rw [scanLoop_tables (by decide) (by decide) (show Marker.fromU8 0xDA = some .sos by decide) s.tables t
      d1 m r mk (fuel + 1) V.tables hsegs hb' hk hr hn]
    -- the scan header
    obtain ⟨d2, e1, hi2, hafter⟩ := hi1.sos hne hnd h3 V.dest hss64 hse64 V.ah V.al
      (stuffBytes (packBytes (padBits s.bits)) ++ tail)
    obtain ⟨t1, ht1⟩ : ∃ t1 : T, { t with
      dec := d1
      io := { t.io with rd := s.header ++ (stuffBytes (packBytes (padBits s.bits)) ++ tail) } } = t1 :=
      ⟨_, rfl⟩
    rw [ht1]
    have hl : liftH parseSos t1 = (.ok (), { t1 with
        dec := d2, io := { t1.io with rd := stuffBytes (packBytes (padBits s.bits)) ++ tail } }) := by
      unfold liftH
      rw [← ht1]
      dsimp only
      rw [e1]
    rw [scanLoop_sos, M.bind_ok hl]
    obtain ⟨t2, ht2⟩ : ∃ t2 : T, { t1 with
        dec := d2
        io := { bs := t1.io.bs.updateProgressiveParams d2.succHigh d2.succLow d2.specStart d2.specEnd
                rd := stuffBytes (packBytes (padBits s.bits)) ++ tail } } = t2 := ⟨_, rfl⟩
    have hmod : M.modify (fun t : T =>
        let bs := t.io.bs.updateProgressiveParams t.dec.succHigh t.dec.succLow t.dec.specStart
          t.dec.specEnd
        { t with io := { t.io with bs := bs } }) { t1 with
        dec := d2, io := { t1.io with rd := stuffBytes (packBytes (padBits s.bits)) ++ tail } } =
        (.ok (), t2) := by
      rw [← ht2]
      rfl
    rw [M.bind_ok hmod]
    -- the data
    obtain ⟨m2, r2, mk2, hhead, hk2, h02, hf2⟩ := cscansBytes_head ha rest
    rw [htail] at hhead
    have hbud : scansUnits w h fh fv (s :: rest) + 1 =
        s.units w h fh fv + (scansUnits w h fh fv rest + 1) := by
      unfold scansUnits
      rw [List.map_cons, List.sum_cons]
      omega
    rw [hbud] at hi2
    obtain ⟨bufs3, t3, e3, hH3, hi3, hrep, -⟩ := hi2.scan (by omega) V.data V.dest V.al hafter hblk
      h02 hf2 (by rw [hk2]; rfl) (t := t2) (by rw [← ht2]) (by rw [← ht2]; rfl)
      (by rw [← ht2]; rfl) (by rw [← ht2]; rfl) (r := r2) (by rw [← ht2, ← hhead]) hH
    obtain ⟨t4, e4, hd4, hr4, hn4⟩ := getMarker_scan hrep hk2
    rw [M.bind_ok e3, M.bind_ok e4, M.bind_ok (M.get_apply _)]
    have hopt : t4.dec.options = o := by
      rw [hd4]
      obtain ⟨_, _, _, _, _, h, -⟩ := hi3
      exact h.options
    rw [List.length_cons] at hx
    rw [hopt, if_neg (by omega)]
    have hmod2 : M.modify (fun t : T => { t with io := { t.io with bs := t.io.bs.reset } }) t4 =
        (.ok (), { t4 with io := { t4.io with bs := t4.io.bs.reset } }) := rfl
    rw [M.bind_ok hmod2]
    exact scanLoop_cscript hblk ha rest _ _ (seen + 1) _ m2 r2 mk2 fuel bufs3 hrest
      (by rw [hd4]; exact hi3) hH3 (by rw [htail]; exact hhead) hk2 hr4 rfl (by omega) (by omega)

/-- All scans of an image, from the data of the first one on. -/
theorem progScans_cscript {d : Decoder} {B : Nat → Nat → Nat → List Int}
    (hblk : ∀ i r k, i < 3 → r < ownRows h fv i → k < ownCols w fh i → BlockOk (B i r k))
    {levEnd lev : Nat → Nat → Option Nat} {after : List UInt8} (ha : Stops after) {s : CScan} {rest : List CScan}
    (hi : CInv w h fh fv qt f cf cpu o tabs (s.units w h fh fv + (scansUnits w h fh fv rest + 1)) d)
    (hdata : s.Data w h fh fv B tabs lev)
    (hdest : ∀ i ∈ s.comps, s.dcDest i < 4 ∧ s.acDest i < 4) (hal : s.al ≤ 13) (hs : AfterSos s d)
    (hss : s.ss = 0) (hah : s.ah = 0)
    (hlate : ∃ x ∈ s.lastCode w h fh fv B, x.length + padCount s.bits.length < 16)
    (hscript : CScript w h fh fv B tabs (s.level lev) rest levEnd)
    (hmax : 1 + rest.length ≤ o.getMaxScans)
    {bufs : List (List I16)} (hbufs : ColourHolds w h fh fv B lev bufs) :
    ∃ bufs' d' rd' tabs', runScans bufs
        ⟨d, stuffBytes (packBytes (padBits s.bits)) ++ cscansBytes after rest⟩ =
        (.ok bufs', ⟨d', rd'⟩) ∧ ColourHolds w h fh fv B levEnd bufs' ∧
      CInv w h fh fv qt f cf cpu o tabs' 1 d' := by
  obtain ⟨m, r, mk, hhead, hk, h0, hf⟩ := cscansBytes_head ha rest
  obtain ⟨t0, ht0⟩ : ∃ t0 : T, ({ dec := d, io := progIo ⟨d, stuffBytes (packBytes (padBits s.bits)) ++
    cscansBytes after rest⟩ } : T) = t0 := ⟨_, rfl⟩
  obtain ⟨bufs1, t1, g1, hH1, hi1, hrep, hl⟩ := hi.scan (by omega) hdata hdest hal hs hblk
    h0 hf (by rw [hk]; rfl) (t := t0) (by rw [← ht0]) (by rw [← ht0]; rfl) (by rw [← ht0]; rfl)
    (by rw [← ht0]; rfl) (r := r) (by rw [← ht0, ← hhead]; rfl) hbufs
  -- the marker has been seen
  obtain ⟨mk', hmk⟩ : ∃ mk', t1.io.bs.marker = some mk' := by
    rcases hm : t1.io.bs.marker with _ | mk'
    · exfalso
      obtain ⟨x, hx, a2⟩ := hlate
      have a1 := hl hss hah x hx hm
      have he := congrArg List.length (hrep.exact hm (by simp))
      rw [List.length_append, t1.io.avail_length hrep.le, List.length_replicate] at he
      omega
    · exact ⟨mk', rfl⟩
  obtain ⟨k1, k2⟩ := marker_only hrep hmk
  rw [hk] at k1
  cases k1
  obtain ⟨t2, ht2⟩ : ∃ t2 : T, { t1 with io := { t1.io with bs := { t1.io.bs with marker := none } } } = t2 :=
    ⟨_, rfl⟩
  have htake : takeMarker t1 = (.ok mk, t2) := by
    unfold takeMarker
    rw [hmk, ← ht2]
  have hfuel := cscansFuel_le ha rest
  rw [hhead, List.length_cons, List.length_cons] at hfuel
  obtain ⟨bufs3, t3, tabs', g3, hH3, hi3⟩ := scanLoop_cscript hblk ha rest tabs _ 1 t2 m r mk
    (t2.io.rd.length + 1) bufs1 hscript (by rw [← ht2]; exact hi1) hH1 hhead hk (by rw [← ht2]; exact k2)
    (by rw [← ht2]) (by rw [← ht2]; show _ ≤ t1.io.rd.length + 1; rw [k2]; omega) hmax
  refine ⟨bufs3, t3.dec, t3.io.rd, tabs', ?_, hH3, hi3⟩
  unfold runScans
  rw [ht0]
  unfold progScans
  rw [M.bind_ok g1, M.bind_ok htake, M.bind_ok (M.get_apply _), g3]

end

end Zune
