import Verif.Lemmas.Gray
import Verif.Spec.Interleave
import Verif.Props.Scan
import Verif.Props.Idct
/-! The scan decoder on coded data of several components. -/

namespace Zune
open Spec

/-! ### Data units -/

/-- Tables and codes of the components. -/
def CompTables (d : Decoder) (cs : List Component) (C : Nat → Codes) : Prop :=
  ∀ i c, cs[i]? = some c → ∃ dc ac, d.dcTables[c.dcHuffTable &&& 3]? = some (some dc) ∧
    d.acTables[c.acHuffTable &&& 3]? = some (some ac) ∧ Tables (C i) dc ac

/-- The decoder with DC predictions `p` and counter `k`. -/
def multiDec (d : Decoder) (cs : List Component) (p : Nat → Int) (k : Nat) : Decoder :=
  { d with components := cs.mapIdx fun i c => { c with dcPred := BitVec.ofInt 32 (p i) }, todo := k }

theorem multiDec_comp {d : Decoder} {cs : List Component} {p : Nat → Int} {k i : Nat} {c : Component}
    (h : cs[i]? = some c) : (multiDec d cs p k).components[i]? =
      some { c with dcPred := BitVec.ofInt 32 (p i) } := by
  unfold multiDec
  dsimp only
  rw [List.getElem?_mapIdx, h]
  rfl

theorem multiDec_modify (d : Decoder) (cs : List Component) (p : Nat → Int) (k i : Nat) (x : Int) :
    ({ multiDec d cs p k with components := (multiDec d cs p k).components.modify i fun c =>
        { c with dcPred := BitVec.ofInt 32 x } } : Decoder) = multiDec d cs (putPred p i x) k := by
  unfold multiDec
  dsimp only
  congr 1
  apply List.ext_getElem?
  intro j
  rw [List.getElem?_modify, List.getElem?_mapIdx, List.getElem?_mapIdx]
  cases cs[j]? with
  | none => simp
  | some c =>
    by_cases hj : i = j
    · subst hj; simp [putPred]
    · simp [hj, putPred, show ¬ j = i from fun h => hj h.symm]

section
variable (d : Decoder) (cs : List Component) (C : Nat → Codes) (extra : List Bool)
  (tl : UInt8 × List UInt8)

/-- The reader stands before the data units `us`. -/
structure UnitsAt (us : List DataUnit) (t : T) (p : Nat → Int) (k : Nat) : Prop where
  dec : t.dec = multiDec d cs p k
  ok : UnitsOk C p us
  rep : Rep t.io (unitsBits C p us ++ extra) (some tl)
  ready : ∀ u ∈ us.head?, Ready t.io (dcBits C p u).length

/-- As long as a data unit is left there are at least 64 bits. -/
def Far (p : Nat → Int) (us : List DataUnit) : Prop :=
  ∀ a b, us = a ++ b → b ≠ [] → 64 ≤ (unitsBits C (predsAfter p a) b).length + extra.length

variable {d cs C extra tl}

theorem Far.tail {p : Nat → Int} {u : DataUnit} {us : List DataUnit} (h : Far C extra p (u :: us)) :
    Far C extra (putPred p u.1 (dcOfBlock u.2)) us :=
  fun a b e hb => h (u :: a) b (by rw [e]; rfl) hb

/-- A data unit is decoded. -/
theorem unit_step {i : Nat} {b : List Int} {us : List DataUnit} {t : T} {p : Nat → Int} {k : Nat}
    (h : UnitsAt d cs C extra tl ((i, b) :: us) t p k) {c : Component} (hc : cs[i]? = some c)
    {dc ac : HuffmanTable} (ht : Tables (C i) dc ac) :
    ∃ t', decodeBlock dc ac i (List.replicate 64 0) t = (.ok (coded b), t') ∧ t'.jobs = t.jobs ∧
      UnitsAt d cs C extra tl us t' (putPred p i (dcOfBlock b)) k ∧
      Late t'.io (endBits (C i).acWord b) := by
  obtain ⟨hb, hfol, hbs⟩ := h.ok
  have hrep := h.rep
  rw [unitsBits, List.append_assoc] at hrep
  obtain ⟨io, e1, r1, l1⟩ := block_coded ht hb hrep (h.ready _ rfl)
  refine ⟨{ t with io := io, dec := multiDec d cs (putPred p i (dcOfBlock b)) k }, ?_, rfl,
    ⟨rfl, hbs, r1, ?_⟩, l1⟩
  · unfold decodeBlock
    rw [h.dec, multiDec_comp hc]
    dsimp only
    dsimp only at e1
    rw [e1]
    dsimp only
    rw [multiDec_modify]
  · intro u hu
    obtain ⟨us', rfl⟩ : ∃ us', us = u :: us' := by
      cases us with
      | nil => simp at hu
      | cons x xs => simp at hu; exact ⟨xs, by rw [hu]⟩
    rw [unitsBits, blockBits, List.append_assoc, List.append_assoc] at r1
    rcases hfol u rfl with hf | hf
    · exact Or.inr (Or.inl hf)
    · refine Or.inr (Or.inr ?_)
      by_cases hm : io.bs.marker = none
      · have := l1 hm
        dsimp only at hf this ⊢
        omega
      · have hp := r1.pre.length_le
        rw [B.unread, if_neg hm, List.append_nil, io.avail_length r1.le, List.length_append] at hp
        exact Nat.le_trans (Nat.le_add_right _ _) hp

/-- No marker has been found as long as 64 bits are left. -/
theorem no_marker {s : B} {bits : List Bool} {tail} (h : Rep s bits tail) (hb : 64 ≤ bits.length) :
    s.bs.marker = none := by
  by_contra hm
  have hp := h.pre.length_le
  rw [B.unread, if_neg hm, List.append_nil, s.avail_length h.le] at hp
  have := h.le63 hm
  omega

/-- The only marker that can be found is the end of the image. -/
theorem only_eoi {s : B} {bits : List Bool} {r : List UInt8} (h : Rep s bits (some (0xD9, r))) :
    s.bs.marker = none ∨ s.bs.marker = some .eoi := by
  rcases hm : s.bs.marker with _ | mk
  · exact Or.inl rfl
  · obtain ⟨h1, -⟩ := marker_only h hm
    rw [show Marker.fromU8 0xD9 = some .eoi by decide] at h1
    exact Or.inr h1.symm

/-! ### Buffers of a strip -/

/-- A data unit of a strip: component, MCU row of the strip, MCU column, row and column in the MCU. -/
abbrev UnitSlot := Nat × Nat × Nat × Nat × Nat

variable (cs) in
/-- The buffers of the components that are kept after the data units `done`. -/
def StripAt (s : Scan) (keep : Nat) (val : UnitSlot → List Int) (done : List UnitSlot) (temp : List (List I16)) :
    Prop :=
  ∀ i c, cs[i]? = some c → i < keep → ∃ buf, temp[i]? = some buf ∧
    buf.length = 64 * (s.mcuWidth * c.verticalSample * c.horizontalSample * s.bias) ∧
    ∀ u, UnitOf s.bias s.mcuWidth c u → ∀ k, blockStart s c u.1 u.2.1 u.2.2.1 u.2.2.2 = 64 * k →
      ((i, u) ∈ done → blockAt buf k = coded (val (i, u))) ∧
      ((i, u) ∉ done → blockAt buf k = List.replicate 64 0)

theorem blockAt_writeAt {buf x : List I16} {k n : Nat} (hb : buf.length = 64 * n) (hx : x.length = 64)
    (hk : k < n) (j : Nat) :
    blockAt (writeAt buf (64 * k) x) j = if j = k then x else blockAt buf j := by
  have hle : 64 * k + x.length ≤ buf.length := by omega
  unfold blockAt
  apply List.ext_getElem?
  intro i
  by_cases hi : i < 64
  · split
    · rename_i h; subst h
      rw [List.getElem?_take_of_lt hi, List.getElem?_drop, getElem?_writeAt hle,
        if_pos (by omega)]
      congr 1; omega
    · rename_i h
      rw [List.getElem?_take_of_lt hi, List.getElem?_drop, getElem?_writeAt hle,
        if_neg (by omega), List.getElem?_take_of_lt hi, List.getElem?_drop]
  · rw [List.getElem?_eq_none (by rw [List.length_take]; omega)]
    split
    · rw [List.getElem?_eq_none (by omega)]
    · rw [List.getElem?_eq_none (by rw [List.length_take]; omega)]

theorem blockStart_pred (s : Scan) (c : Component) (q : I32) (v j a b : Nat) :
    blockStart s { c with dcPred := q } v j a b = blockStart s c v j a b := rfl

/-- A data unit is decoded into its place. -/
theorem sample_step {s : Scan} {i : Nat} {c : Component} (hc : cs[i]? = some c)
    (hP : Inside (fun u : Nat × Nat × Nat × Nat => blockStart s c u.1 u.2.1 u.2.2.1 u.2.2.2)
        (UnitOf s.bias s.mcuWidth c) (s.mcuWidth * c.verticalSample * c.horizontalSample * s.bias) ∧
      Apart (fun u : Nat × Nat × Nat × Nat => blockStart s c u.1 u.2.1 u.2.2.1 u.2.2.2)
        (UnitOf s.bias s.mcuWidth c))
    {dc ac : HuffmanTable} (ht : Tables (C i) dc ac) {val : UnitSlot → List Int} {done : List UnitSlot}
    {temp : List (List I16)} (hS : StripAt cs s d.options.getOutColorspace.numComponents val done temp)
    {v j a b : Nat} (hu : UnitOf s.bias s.mcuWidth c (v, j, a, b)) (hn : (i, v, j, a, b) ∉ done)
    {us : List DataUnit} {t : T} {p : Nat → Int} {k : Nat}
    (h : UnitsAt d cs C extra tl ((i, val (i, v, j, a, b)) :: us) t p k) (q : I32) :
    ∃ t' temp', decodeSample s v j i dc ac { c with dcPred := q } temp (a, b) t = (.ok temp', t') ∧
      t'.jobs = t.jobs ∧
      UnitsAt d cs C extra tl us t' (putPred p i (dcOfBlock (val (i, v, j, a, b)))) k ∧
      StripAt cs s d.options.getOutColorspace.numComponents val ((i, v, j, a, b) :: done) temp' ∧
      Late t'.io (endBits (C i).acWord (val (i, v, j, a, b))) := by
  obtain ⟨t', e1, e2, e3, eL⟩ := unit_step h hc ht
  have hopt : t.dec.options = d.options := by rw [h.dec]; rfl
  have hnc : 0 < d.options.getOutColorspace.numComponents := by
    cases d.options.getOutColorspace <;> decide
  unfold decodeSample
  rw [M.bind_ok (M.get_apply t), hopt]
  by_cases hk : i < d.options.getOutColorspace.numComponents
  · rw [if_pos (by omega)]
    dsimp only
    rw [blockStart_pred]
    obtain ⟨buf, b1, b2, b3⟩ := hS i c hc hk
    obtain ⟨m, hm, hpl⟩ := hP.1 (v, j, a, b) hu
    dsimp only at hpl
    have hun : M.unwrap temp[i]? t = (.ok buf, t) := by rw [b1]; rfl
    have hz : (buf.drop (64 * m)).take 64 = List.replicate 64 0 := (b3 _ hu m hpl).2 hn
    rw [M.bind_ok hun, hpl, if_pos (by omega), hz, M.bind_ok e1]
    have hlen : 64 * m + (coded (val (i, v, j, a, b))).length ≤ buf.length := by
      rw [coded_length]; omega
    refine ⟨t', _, rfl, e2, e3, ?_, eL⟩
    intro i' c' hc' hk'
    by_cases hi : i' = i
    · subst hi
      rw [hc] at hc'
      cases hc'
      refine ⟨writeAt buf (64 * m) (coded (val (i', v, j, a, b))), ?_, by
        rw [length_writeAt hlen, b2], ?_⟩
      · rw [List.getElem?_set_self (List.getElem?_eq_some_iff.1 b1).1]
      · intro u hu' l hl
        rw [blockAt_writeAt b2 (coded_length _) hm]
        by_cases hl' : l = m
        · have : u = (v, j, a, b) := hP.2 u _ hu' hu (by dsimp only; rw [hl, hpl, hl'])
          subst this
          rw [if_pos hl']
          exact ⟨fun _ => rfl, fun hno => absurd (List.mem_cons_self ..) hno⟩
        · rw [if_neg hl']
          have hne : (i', u) ≠ (i', v, j, a, b) := by
            intro hcon
            have : u = (v, j, a, b) := by injection hcon
            subst this
            rw [hpl] at hl
            omega
          refine ⟨fun hin => (b3 u hu' l hl).1 ?_, fun hno => (b3 u hu' l hl).2 ?_⟩
          · rcases List.mem_cons.1 hin with he | he
            · exact absurd he hne
            · exact he
          · exact fun hin => hno (List.mem_cons_of_mem _ hin)
    · obtain ⟨buf', x1, x2, x3⟩ := hS i' c' hc' hk'
      refine ⟨buf', ?_, x2, ?_⟩
      · rw [List.getElem?_set_ne (fun h => hi h.symm), x1]
      · intro u hu' l hl
        have hne : (i', u) ≠ (i, v, j, a, b) := by
          intro hcon
          injection hcon with h1 h2
          exact hi h1
        refine ⟨fun hin => (x3 u hu' l hl).1 ?_, fun hno => (x3 u hu' l hl).2 ?_⟩
        · rcases List.mem_cons.1 hin with he | he
          · exact absurd he hne
          · exact he
        · exact fun hin => hno (List.mem_cons_of_mem _ hin)
  · rw [if_neg (by omega)]
    rw [M.bind_ok e1]
    refine ⟨t', temp, rfl, e2, e3, ?_, eL⟩
    intro i' c' hc' hk'
    have hi : i' ≠ i := by rintro rfl; exact hk hk'
    obtain ⟨buf', x1, x2, x3⟩ := hS i' c' hc' hk'
    refine ⟨buf', x1, x2, ?_⟩
    intro u hu' l hl
    have hne : (i', u) ≠ (i, v, j, a, b) := by
      intro hcon
      injection hcon with h1 h2
      exact hi h1
    refine ⟨fun hin => (x3 u hu' l hl).1 ?_, fun hno => (x3 u hu' l hl).2 ?_⟩
    · rcases List.mem_cons.1 hin with he | he
      · exact absurd he hne
      · exact he
    · exact fun hin => hno (List.mem_cons_of_mem _ hin)

/-! ### Components, MCUs, strips -/

/-- The slots of component `i` in an MCU. -/
def compSlots (i v j V Hh : Nat) : List UnitSlot := (samplePairs V Hh).map fun ab => (i, v, j, ab.1, ab.2)

/-- The data units at some slots. -/
def slotUnits (val : UnitSlot → List Int) (l : List UnitSlot) : List DataUnit := l.map fun x => (x.1, val x)

theorem predsAfter_append (p : Nat → Int) (a b : List DataUnit) :
    predsAfter p (a ++ b) = predsAfter (predsAfter p a) b := by
  induction a generalizing p with
  | nil => rfl
  | cons u us ih => exact ih _

theorem Far.append {p : Nat → Int} {a b : List DataUnit} (h : Far C extra p (a ++ b)) :
    Far C extra (predsAfter p a) b := by
  intro x y e hy
  rw [← predsAfter_append]
  exact h (a ++ x) y (by rw [e, List.append_assoc]) hy

theorem StripAt.congr {s : Scan} {keep : Nat} {val : UnitSlot → List Int} {done done' : List UnitSlot}
    {temp : List (List I16)} (h : StripAt cs s keep val done temp) (e : ∀ x, x ∈ done ↔ x ∈ done') :
    StripAt cs s keep val done' temp := by
  intro i c hc hi
  obtain ⟨buf, b1, b2, b3⟩ := h i c hc hi
  refine ⟨buf, b1, b2, fun u hu k hk => ⟨fun hin => (b3 u hu k hk).1 ((e _).2 hin), fun hno => (b3 u hu k hk).2 fun hin => hno ((e _).1 hin)⟩⟩

/-- Where the units of a component go. -/
def PlacesOk (s : Scan) (c : Component) : Prop :=
  Inside (fun u : Nat × Nat × Nat × Nat => blockStart s c u.1 u.2.1 u.2.2.1 u.2.2.2)
    (UnitOf s.bias s.mcuWidth c) (s.mcuWidth * c.verticalSample * c.horizontalSample * s.bias) ∧
  Apart (fun u : Nat × Nat × Nat × Nat => blockStart s c u.1 u.2.1 u.2.2.1 u.2.2.2)
    (UnitOf s.bias s.mcuWidth c)

theorem samples_fold {s : Scan} {i : Nat} {c : Component} (hc : cs[i]? = some c) (hP : PlacesOk s c)
    {dc ac : HuffmanTable} (ht : Tables (C i) dc ac) {val : UnitSlot → List Int} {v j : Nat} (q : I32)
    {us : List DataUnit} {k : Nat} :
    ∀ (l : List (Nat × Nat)) (done : List UnitSlot) (temp : List (List I16)) (t : T) (p : Nat → Int),
      StripAt cs s d.options.getOutColorspace.numComponents val done temp →
      (∀ ab ∈ l, UnitOf s.bias s.mcuWidth c (v, j, ab.1, ab.2)) → l.Nodup →
      (∀ ab ∈ l, (i, v, j, ab.1, ab.2) ∉ done) →
      UnitsAt d cs C extra tl
        (slotUnits val (l.map fun ab => (i, v, j, ab.1, ab.2)) ++ us) t p k →
      ∃ t' temp', M.foldM l temp (decodeSample s v j i dc ac { c with dcPred := q }) t =
          (.ok temp', t') ∧ t'.jobs = t.jobs ∧
        UnitsAt d cs C extra tl us t'
          (predsAfter p (slotUnits val (l.map fun ab => (i, v, j, ab.1, ab.2)))) k ∧
        StripAt cs s d.options.getOutColorspace.numComponents val
          ((l.map fun ab => (i, v, j, ab.1, ab.2)) ++ done) temp' ∧
        ∀ x u, slotUnits val (l.map fun ab => (i, v, j, ab.1, ab.2)) = x ++ [u] →
          Late t'.io (endBits (C u.1).acWord u.2)
  | [], done, temp, t, p, hS, _, _, _, h => ⟨t, temp, rfl, rfl, h, hS, fun x u e => by
      cases x <;> cases e⟩
  | (a, b) :: l, done, temp, t, p, hS, hu, hnd, hno, h => by
    obtain ⟨hnd1, hnd2⟩ := List.nodup_cons.1 hnd
    obtain ⟨t1, temp1, e1, e2, e3, e4, eL⟩ := sample_step hc hP ht hS (hu (a, b) (by simp))
      (hno (a, b) (by simp)) h q
    obtain ⟨t2, temp2, f1, f2, f3, f4, fL⟩ := samples_fold hc hP ht q l _ temp1 t1 _ e4
      (fun x hx => hu x (by simp [hx])) hnd2 (by
        intro x hx hin
        rcases List.mem_cons.1 hin with he | he
        · have : x = (a, b) := by
            obtain ⟨x1, x2⟩ := x
            injection he with _ he
            injection he with _ he
            injection he with _ he
          subst this
          exact hnd1 hx
        · exact hno x (by simp [hx]) he) e3
    refine ⟨t2, temp2, ?_, by rw [f2, e2], f3, f4.congr ?_, ?_⟩
    · rw [M.foldM]
      have := M.bind_ok (f := fun b' => M.foldM l b' (decodeSample s v j i dc ac { c with dcPred := q })) e1
      exact this.trans f1
    · intro x
      simp only [List.map_cons, List.mem_append, List.mem_cons]
      tauto
    · intro x u e
      cases l with
      | nil =>
        cases f1
        cases x with
        | nil => cases e; exact eL
        | cons y ys => cases ys <;> cases e
      | cons ab l =>
        cases x with
        | nil => cases e
        | cons y ys => exact fL ys u (List.cons.inj e).2

theorem samplePairs_nodup (V Hh : Nat) : (samplePairs V Hh).Nodup := by
  unfold samplePairs
  rw [List.nodup_flatMap]
  refine ⟨fun a _ => (List.nodup_range).map fun x y h => by simpa using h, ?_⟩
  refine (List.nodup_range (n := V)).imp ?_
  intro a b hab x hx hy
  obtain ⟨_, -, rfl⟩ := List.mem_map.1 hx
  obtain ⟨_, -, h⟩ := List.mem_map.1 hy
  injection h with h1 h2
  exact hab h1.symm

theorem mem_samplePairs {V Hh : Nat} {x : Nat × Nat} :
    x ∈ samplePairs V Hh ↔ x.1 < V ∧ x.2 < Hh := by
  unfold samplePairs
  simp only [List.mem_flatMap, List.mem_map, List.mem_range]
  constructor
  · rintro ⟨a, ha, b, hb, rfl⟩; exact ⟨ha, hb⟩
  · rintro ⟨h1, h2⟩; exact ⟨_, h1, _, h2, rfl⟩

variable (cs) in
/-- Rows and columns of units of component `i` in an MCU. -/
def mcuShape (i : Nat) : Nat × Nat :=
  match cs[i]? with
  | some c => (c.verticalSample, c.horizontalSample)
  | none => (0, 0)

theorem mcuShape_some {i : Nat} {c : Component} (h : cs[i]? = some c) :
    mcuShape cs i = (c.verticalSample, c.horizontalSample) := by
  unfold mcuShape; rw [h]

/-- All units of a component of an MCU. -/
theorem component_step {s : Scan} {i : Nat} {c : Component} (hc : cs[i]? = some c) (hP : PlacesOk s c)
    (hT : CompTables d cs C) {val : UnitSlot → List Int} {v j : Nat} (hv : v < s.bias)
    (hj : j < s.mcuWidth) {us : List DataUnit} {k : Nat} {done : List UnitSlot} {temp : List (List I16)}
    {t : T} {p : Nat → Int}
    (hS : StripAt cs s d.options.getOutColorspace.numComponents val done temp)
    (hno : ∀ x ∈ compSlots i v j (mcuShape cs i).1 (mcuShape cs i).2, x ∉ done)
    (h : UnitsAt d cs C extra tl
      (slotUnits val (compSlots i v j (mcuShape cs i).1 (mcuShape cs i).2) ++ us) t p k) :
    ∃ t' temp', decodeComponent s v j temp i t = (.ok temp', t') ∧ t'.jobs = t.jobs ∧
      UnitsAt d cs C extra tl us t'
        (predsAfter p (slotUnits val (compSlots i v j (mcuShape cs i).1 (mcuShape cs i).2))) k ∧
      StripAt cs s d.options.getOutColorspace.numComponents val
        (compSlots i v j (mcuShape cs i).1 (mcuShape cs i).2 ++ done) temp' ∧
      ∀ x u, slotUnits val (compSlots i v j (mcuShape cs i).1 (mcuShape cs i).2) = x ++ [u] →
        Late t'.io (endBits (C u.1).acWord u.2) := by
  obtain ⟨dc, ac, t1, t2, ht⟩ := hT i c hc
  rw [mcuShape_some hc] at h hno ⊢
  dsimp only at h hno ⊢
  obtain ⟨t', temp', e1, e2, e3, e4, eL⟩ := samples_fold hc hP ht (BitVec.ofInt 32 (p i))
    (samplePairs c.verticalSample c.horizontalSample) done temp t p hS
    (fun ab hab => ⟨hv, hj, (mem_samplePairs.1 hab).1, (mem_samplePairs.1 hab).2⟩)
    (samplePairs_nodup _ _) (fun ab hab => hno _ (List.mem_map_of_mem hab)) h
  refine ⟨t', temp', ?_, e2, e3, e4, eL⟩
  unfold decodeComponent
  rw [M.bind_ok (M.get_apply t)]
  have h1 : M.idx t.dec.components i t = (.ok { c with dcPred := BitVec.ofInt 32 (p i) }, t) :=
    M.idx_some (by rw [h.dec]; exact multiDec_comp hc) t
  have h2 : M.idx t.dec.dcTables (c.dcHuffTable &&& 3) t = (.ok (some dc), t) :=
    M.idx_some (by rw [h.dec]; exact t1) t
  have h3 : M.idx t.dec.acTables (c.acHuffTable &&& 3) t = (.ok (some ac), t) :=
    M.idx_some (by rw [h.dec]; exact t2) t
  have h4 : M.okOr (some dc) .huffmanDecode t = (.ok dc, t) := rfl
  have h5 : M.okOr (some ac) .huffmanDecode t = (.ok ac, t) := rfl
  rw [M.bind_ok h1, M.bind_ok h2, M.bind_ok h4, M.bind_ok h3, M.bind_ok h5]
  exact e1

variable (cs) in
/-- The slots of the components `ps` of an MCU. -/
def mcuSlots (v j : Nat) (ps : List Nat) : List UnitSlot :=
  ps.flatMap fun i => compSlots i v j (mcuShape cs i).1 (mcuShape cs i).2

theorem mem_compSlots {i v j V Hh : Nat} {x : UnitSlot} (h : x ∈ compSlots i v j V Hh) :
    x.1 = i ∧ x.2.1 = v ∧ x.2.2.1 = j := by
  obtain ⟨ab, -, rfl⟩ := List.mem_map.1 h
  exact ⟨rfl, rfl, rfl⟩

theorem mem_mcuSlots {v j : Nat} {ps : List Nat} {x : UnitSlot} (h : x ∈ mcuSlots cs v j ps) :
    x.1 ∈ ps ∧ x.2.1 = v ∧ x.2.2.1 = j := by
  obtain ⟨i, hi, hx⟩ := List.mem_flatMap.1 h
  obtain ⟨h1, h2, h3⟩ := mem_compSlots hx
  exact ⟨by rw [h1]; exact hi, h2, h3⟩

/-- The components of a strip. -/
def CompsOk (s : Scan) (cs : List Component) : Prop :=
  ∀ c ∈ cs, PlacesOk s c ∧ 0 < c.verticalSample ∧ 0 < c.horizontalSample

/-! ### The restart counter -/

/-- The restart counter `k` when `left` components are left in an interval; `r` is the restart
interval. In the last interval it does not matter. -/
def Count (r : Nat) (last : Bool) (left k : Nat) : Prop :=
  match last with
  | true => True
  | false => 0 < r ∧ k = (left - 1) % r + 1

/-- The counter after a component. -/
theorem Count.next {r : Nat} {last : Bool} {left k : Nat} (h : Count r last (left + 1) k)
    (hl : last = true ∨ 0 < left) {k' : Nat} (hk' : 0 < k → k' = if k = 1 then r else k - 1) :
    Count r last left k' := by
  cases last with
  | true => trivial
  | false =>
    obtain ⟨h1, h2⟩ := h
    rw [hk' (by omega)]
    have hpos : 0 < left := by rcases hl with hl | hl; cases hl; exact hl
    refine ⟨h1, ?_⟩
    rw [Nat.add_sub_cancel] at h2
    by_cases hk : k = 1
    · rw [if_pos hk]
      have h0 : left % r = 0 := by omega
      obtain ⟨q, rfl⟩ := Nat.dvd_of_mod_eq_zero h0
      obtain ⟨q, rfl⟩ : ∃ q', q = q' + 1 := ⟨q - 1, by
        have : q ≠ 0 := by rintro rfl; simp at hpos
        omega⟩
      rw [show r * (q + 1) - 1 = (r - 1) + r * q by rw [Nat.mul_add, Nat.mul_one]; omega,
        Nat.add_mul_mod_self_left, Nat.mod_eq_of_lt (by omega)]
      omega
    · rw [if_neg hk]
      have h0 : left % r ≠ 0 := by omega
      have hd := Nat.div_add_mod left r
      have hlt := Nat.mod_lt left h1
      rw [show left - 1 = (left % r - 1) + r * (left / r) by omega, Nat.add_mul_mod_self_left,
        Nat.mod_eq_of_lt (by omega)]
      omega

/-- Counting without a restart. -/
theorem count_quiet {t : T} {p : Nat → Int} {k : Nat} (hd : t.dec = multiDec d cs p k)
    (hm : k = 1 → t.io.bs.marker = none ∨ t.io.bs.marker = some .eoi) :
    ∃ k', countDown t = (.ok (), { t with dec := multiDec d cs p k' }) ∧
      (0 < k → k' = if k = 1 then d.restartInterval else k - 1) := by
  obtain ⟨n, h1, h2⟩ := countDown_quiet (t := t) (by rw [hd]; exact hm)
  rw [hd] at h2
  refine ⟨n, ?_, h2⟩
  rw [h1, hd]
  rfl

/-- Counting at a restart. -/
theorem count_restart {t : T} {p : Nat → Int} (hd : t.dec = multiDec d cs p 1) {i : Nat}
    (hm : t.io.bs.marker = some (.rst i)) :
    countDown t = (.ok (), { t with dec := multiDec d cs (fun _ => 0) d.restartInterval
                                    io := { t.io with bs := t.io.bs.reset } }) := by
  have htodo : t.dec.todo = 1 := by rw [hd]; rfl
  rw [countDown_last htodo]
  unfold handleRst
  dsimp only
  rw [hm]
  dsimp only
  refine Prod.ext rfl ?_
  dsimp only
  congr 1
  rw [hd]
  unfold multiDec
  dsimp only
  congr 1
  apply List.ext_getElem?
  intro j
  rw [List.getElem?_map, List.getElem?_mapIdx, List.getElem?_mapIdx]
  cases cs[j]? <;> rfl

/-! ### An MCU -/

/-- A restart marker. -/
def IsRst (m : UInt8) : Prop := ∃ i, Marker.fromU8 m = some (.rst i)

/-- The marker after an interval. -/
def TailOk (last : Bool) (tl : UInt8 × List UInt8) : Prop :=
  match last with
  | true => tl.1 = 0xD9
  | false => IsRst tl.1

/-- The components `ps` of an MCU, then the data units `us` of `R` other components, can be left without
harm. -/
structure Calm (d : Decoder) (cs : List Component) (C : Nat → Codes) (extra : List Bool) (last : Bool)
    (val : UnitSlot → List Int) (v j : Nat) (ps : List Nat) (us : List DataUnit) (R : Nat)
    (p : Nat → Int) : Prop where
  far : last = true → Far C extra p (slotUnits val (mcuSlots cs v j ps) ++ us)
  late : last = false → ∀ x y, ps = x ++ y → 0 < y.length + R → d.restartInterval ≤ y.length + R →
    64 ≤ (unitsBits C (predsAfter p (slotUnits val (mcuSlots cs v j x)))
      (slotUnits val (mcuSlots cs v j y) ++ us)).length + extra.length
  ends : last = false → R = 0 → us = [] ∧ extra.length ≤ 7 ∧
    ∀ x u, slotUnits val (mcuSlots cs v j ps) = x ++ [u] → endBits (C u.1).acWord u.2 ≤ 24

/-- The state after an MCU. -/
structure After (d : Decoder) (cs : List Component) (C : Nat → Codes) (extra : List Bool)
    (tl : UInt8 × List UInt8) (last : Bool) (us : List DataUnit) (R : Nat) (p : Nat → Int) (t : T) :
    Prop where
  stay : last = true ∨ 0 < R → ∃ k, Count d.restartInterval last R k ∧ UnitsAt d cs C extra tl us t p k
  restart : last = false → R = 0 → t.dec = multiDec d cs (fun _ => 0) d.restartInterval ∧
    t.io.bs.bitsLeft = 0 ∧ t.io.bs.marker = none ∧ t.io.rd = tl.2

theorem mcuSlots_cons (v j i : Nat) (ps : List Nat) (val : UnitSlot → List Int) :
    slotUnits val (mcuSlots cs v j (i :: ps)) =
      slotUnits val (compSlots i v j (mcuShape cs i).1 (mcuShape cs i).2) ++
        slotUnits val (mcuSlots cs v j ps) := by
  unfold slotUnits mcuSlots
  rw [List.flatMap_cons, List.map_append]

theorem Calm.next {last : Bool} {val : UnitSlot → List Int} {v j i : Nat} {ps : List Nat}
    {us : List DataUnit} {R : Nat} {p : Nat → Int}
    (h : Calm d cs C extra last val v j (i :: ps) us R p) :
    Calm d cs C extra last val v j ps us R
      (predsAfter p (slotUnits val (compSlots i v j (mcuShape cs i).1 (mcuShape cs i).2))) := by
  refine ⟨fun hl => ?_, fun hl x y e h0 hr => ?_, fun hl hR => ?_⟩
  · have := h.far hl
    rw [mcuSlots_cons, List.append_assoc] at this
    exact this.append
  · have := h.late hl (i :: x) y (by rw [e]; rfl) h0 hr
    rw [mcuSlots_cons, predsAfter_append] at this
    exact this
  · obtain ⟨a, b, c⟩ := h.ends hl hR
    refine ⟨a, b, fun x u e => c (slotUnits val (compSlots i v j (mcuShape cs i).1 (mcuShape cs i).2) ++ x) u ?_⟩
    rw [mcuSlots_cons, e, List.append_assoc]

theorem units_ne_nil {s : Scan} (hcs : CompsOk s cs) {val : UnitSlot → List Int} {v j i : Nat}
    (hi : i < cs.length) :
    slotUnits val (compSlots i v j (mcuShape cs i).1 (mcuShape cs i).2) ≠ [] := by
  intro hnil
  obtain ⟨c', hc'⟩ : ∃ c', cs[i]? = some c' := ⟨_, List.getElem?_eq_getElem hi⟩
  obtain ⟨-, hv', hh'⟩ := hcs c' (List.mem_of_getElem? hc')
  have hm : (i, v, j, 0, 0) ∈ compSlots i v j (mcuShape cs i).1 (mcuShape cs i).2 := by
    rw [mcuShape_some hc']
    exact List.mem_map.2 ⟨(0, 0), mem_samplePairs.2 ⟨hv', hh'⟩, rfl⟩
  have := List.mem_map_of_mem (f := fun x : UnitSlot => (x.1, val x)) hm
  unfold slotUnits at hnil
  rw [hnil] at this
  cases this

theorem mcuSlots_one (v j i : Nat) (val : UnitSlot → List Int) :
    slotUnits val (mcuSlots cs v j [i]) =
      slotUnits val (compSlots i v j (mcuShape cs i).1 (mcuShape cs i).2) := by
  rw [mcuSlots_cons]
  show _ ++ [] = _
  rw [List.append_nil]

/-- The last component of an interval. -/
theorem group_last {s : Scan} (hcs : CompsOk s cs) (hT : CompTables d cs C) {val : UnitSlot → List Int}
    {v j i : Nat} (hv : v < s.bias) (hj : j < s.mcuWidth) (hi : i < cs.length) (htl : TailOk false tl)
    {done : List UnitSlot} {temp : List (List I16)} {t : T} {p : Nat → Int}
    (hS : StripAt cs s d.options.getOutColorspace.numComponents val done temp)
    (hno : ∀ x ∈ mcuSlots cs v j [i], x ∉ done)
    (h : UnitsAt d cs C extra tl (slotUnits val (mcuSlots cs v j [i])) t p 1)
    (hpad : extra.length ≤ 7)
    (hends : ∀ x u, slotUnits val (mcuSlots cs v j [i]) = x ++ [u] → endBits (C u.1).acWord u.2 ≤ 24) :
    ∃ t' temp', decodeMcu s v j [i] temp t = (.ok temp', t') ∧ t'.jobs = t.jobs ∧
      After d cs C extra tl false [] 0 (predsAfter p (slotUnits val (mcuSlots cs v j [i]))) t' ∧
      StripAt cs s d.options.getOutColorspace.numComponents val (mcuSlots cs v j [i] ++ done) temp' := by
  obtain ⟨c, hc⟩ : ∃ c, cs[i]? = some c := ⟨_, List.getElem?_eq_getElem hi⟩
  obtain ⟨hP, -⟩ := hcs c (List.mem_of_getElem? hc)
  rw [mcuSlots_one] at h hends
  have hms : mcuSlots cs v j [i] = compSlots i v j (mcuShape cs i).1 (mcuShape cs i).2 := by
    unfold mcuSlots
    rw [List.flatMap_cons, List.flatMap_nil, List.append_nil]
  rw [hms] at hno ⊢
  rw [← List.append_nil (slotUnits val _)] at h
  obtain ⟨t1, temp1, e1, e2, e3, e4, eL⟩ := component_step hc hP hT hv hj hS hno h
  obtain ⟨x, u, hxu⟩ : ∃ x u, slotUnits val (compSlots i v j (mcuShape cs i).1 (mcuShape cs i).2) =
      x ++ [u] := ⟨_, _, (List.dropLast_append_getLast (units_ne_nil hcs hi)).symm⟩
  obtain ⟨mk, f1, f2, f3⟩ := marker_found (m := tl.1) (r := tl.2) e3.rep
    (by show ([] ++ extra).length ≤ 7; exact hpad) (eL x u hxu) (hends x u hxu)
  obtain ⟨q, hq⟩ := htl
  rw [hq] at f2
  cases f2
  have hcd := count_restart e3.dec f1
  obtain ⟨t2, ht2⟩ : ∃ t2 : T, ({ t1 with
      dec := multiDec d cs (fun _ => 0) d.restartInterval
      io := { t1.io with bs := t1.io.bs.reset } } : T) = t2 := ⟨_, rfl⟩
  rw [ht2] at hcd
  have g1 : t2.dec = multiDec d cs (fun _ => 0) d.restartInterval := by rw [← ht2]
  have g2 : t2.io.bs.bitsLeft = 0 := by rw [← ht2]; rfl
  have g3 : t2.io.bs.marker = none := by rw [← ht2]; rfl
  have g4 : t2.io.rd = tl.2 := by rw [← ht2]; exact f3
  have g5 : t2.jobs = t1.jobs := by rw [← ht2]
  refine ⟨t2, temp1, ?_, by rw [g5, e2], ⟨fun hor => ?_, fun _ _ => ⟨g1, g2, g3, g4⟩⟩, e4⟩
  · rw [decodeMcu, M.bind_ok e1, M.bind_ok hcd, M.bind_ok (M.get_apply _), g3]
    rfl
  · rcases hor with h | h
    · cases h
    · omega

/-- The marker that the reader may have found. -/
theorem may_marker {last : Bool} (htl : TailOk last tl) {us : List DataUnit} {t : T} {p : Nat → Int}
    {k : Nat} (h : UnitsAt d cs C extra tl us t p k) :
    t.io.bs.marker = none ∨ (last = true ∧ t.io.bs.marker = some .eoi) ∨
      ∃ i, last = false ∧ t.io.bs.marker = some (.rst i) := by
  rcases hm : t.io.bs.marker with _ | mk
  · exact Or.inl rfl
  · right
    obtain ⟨hm1, -⟩ := marker_only (m := tl.1) (r := tl.2) h.rep hm
    cases last with
    | true =>
      left
      have he : tl.1 = 0xD9 := htl
      rw [he, show Marker.fromU8 0xD9 = some .eoi by decide] at hm1
      exact ⟨rfl, hm1.symm⟩
    | false =>
      right
      obtain ⟨q, hq⟩ := htl
      rw [hq] at hm1
      exact ⟨q, rfl, hm1.symm⟩

/-- A component that is not the last of an interval. -/
theorem group_step {s : Scan} (hcs : CompsOk s cs) (hT : CompTables d cs C) {val : UnitSlot → List Int}
    {v j i : Nat} (hv : v < s.bias) (hj : j < s.mcuWidth) (hi : i < cs.length) {last : Bool}
    (htl : TailOk last tl) {ps : List Nat} {us : List DataUnit} {R k : Nat}
    {done : List UnitSlot} {temp : List (List I16)} {t : T} {p : Nat → Int}
    (hS : StripAt cs s d.options.getOutColorspace.numComponents val done temp)
    (hno : ∀ x ∈ compSlots i v j (mcuShape cs i).1 (mcuShape cs i).2, x ∉ done)
    (hk : Count d.restartInterval last (ps.length + R + 1) k) (hgo : last = true ∨ 0 < ps.length + R)
    (h : UnitsAt d cs C extra tl (slotUnits val (compSlots i v j (mcuShape cs i).1 (mcuShape cs i).2) ++
      (slotUnits val (mcuSlots cs v j ps) ++ us)) t p k)
    (hF : Calm d cs C extra last val v j (i :: ps) us R p) :
    ∃ t' t2 temp' k', decodeComponent s v j temp i t = (.ok temp', t') ∧ countDown t' = (.ok (), t2) ∧
      t2.jobs = t.jobs ∧ Count d.restartInterval last (ps.length + R) k' ∧
      UnitsAt d cs C extra tl (slotUnits val (mcuSlots cs v j ps) ++ us) t2
        (predsAfter p (slotUnits val (compSlots i v j (mcuShape cs i).1 (mcuShape cs i).2))) k' ∧
      StripAt cs s d.options.getOutColorspace.numComponents val
        (compSlots i v j (mcuShape cs i).1 (mcuShape cs i).2 ++ done) temp' := by
  obtain ⟨c, hc⟩ : ∃ c, cs[i]? = some c := ⟨_, List.getElem?_eq_getElem hi⟩
  obtain ⟨hP, -⟩ := hcs c (List.mem_of_getElem? hc)
  obtain ⟨t1, temp1, e1, e2, e3, e4, eL⟩ := component_step hc hP hT hv hj hS hno h
  have hquiet : k = 1 → t1.io.bs.marker = none ∨ t1.io.bs.marker = some .eoi := by
    intro hk1
    rcases may_marker htl e3 with h | ⟨-, h⟩ | ⟨q, hl, h⟩
    · exact Or.inl h
    · exact Or.inr h
    · left
      subst hl
      have h0 : 0 < ps.length + R := by rcases hgo with h | h; cases h; exact h
      have hmod : (ps.length + R) % d.restartInterval = 0 := by
        have := hk.2
        rw [Nat.add_sub_cancel] at this
        omega
      have hle : d.restartInterval ≤ ps.length + R :=
        Nat.le_of_dvd h0 (Nat.dvd_of_mod_eq_zero hmod)
      refine no_marker e3.rep ?_
      rw [List.length_append]
      have := hF.late rfl [i] ps rfl h0 hle
      rw [mcuSlots_one] at this
      exact this
  obtain ⟨k', hcd, hk'⟩ := count_quiet e3.dec hquiet
  exact ⟨t1, _, temp1, _, e1, hcd, e2, hk.next hgo hk', ⟨rfl, e3.ok, e3.rep, e3.ready⟩, e4⟩

/-- The components `ps` of an MCU. -/
theorem mcu_step {s : Scan} (hcs : CompsOk s cs) (hT : CompTables d cs C) {val : UnitSlot → List Int}
    {v j : Nat} (hv : v < s.bias) (hj : j < s.mcuWidth) {us : List DataUnit} {R : Nat} {last : Bool}
    (htl : TailOk last tl) :
    ∀ (ps : List Nat) (k : Nat) (done : List UnitSlot) (temp : List (List I16)) (t : T) (p : Nat → Int),
      (∀ i ∈ ps, i < cs.length) → ps.Nodup → ps ≠ [] → Count d.restartInterval last (ps.length + R) k →
      StripAt cs s d.options.getOutColorspace.numComponents val done temp →
      (∀ x ∈ mcuSlots cs v j ps, x ∉ done) →
      UnitsAt d cs C extra tl (slotUnits val (mcuSlots cs v j ps) ++ us) t p k →
      Calm d cs C extra last val v j ps us R p →
      ∃ t' temp', decodeMcu s v j ps temp t = (.ok temp', t') ∧ t'.jobs = t.jobs ∧
        After d cs C extra tl last us R (predsAfter p (slotUnits val (mcuSlots cs v j ps))) t' ∧
        StripAt cs s d.options.getOutColorspace.numComponents val (mcuSlots cs v j ps ++ done) temp'
  | [], k, done, temp, t, p, _, _, hne, _, _, _, _, _ => absurd rfl hne
  | i :: ps, k, done, temp, t, p, hlt, hnd, _, hk, hS, hno, h, hF => by
    obtain ⟨hnd1, hnd2⟩ := List.nodup_cons.1 hnd
    rw [List.length_cons, show ps.length + 1 + R = (ps.length + R) + 1 by omega] at hk
    by_cases hend : last = false ∧ ps.length + R = 0
    · obtain ⟨hl, h0⟩ := hend
      have hps : ps = [] := List.eq_nil_of_length_eq_zero (by omega)
      have hR : R = 0 := by omega
      subst hps hl hR
      obtain ⟨hus, hpad, hends⟩ := hF.ends rfl rfl
      subst hus
      have hk1 : k = 1 := by
        have := hk.2
        rw [h0] at this
        simpa using this
      subst hk1
      rw [List.append_nil] at h
      exact group_last hcs hT hv hj (hlt i (by simp)) htl hS hno h hpad hends
    · have hgo : last = true ∨ 0 < ps.length + R := by
        cases last with
        | true => exact Or.inl rfl
        | false => right; by_contra hcon; exact hend ⟨rfl, by omega⟩
      rw [mcuSlots_cons, List.append_assoc] at h
      obtain ⟨t1, t2, temp1, k', e1, hcd, e2, hnext, hU, e4⟩ := group_step hcs hT hv hj (hlt i (by simp))
        htl hS (fun x hx => hno x (by
          unfold mcuSlots; rw [List.flatMap_cons]; exact List.mem_append_left _ hx)) hk hgo h hF
      have hF2 := hF.next
      have hmark := may_marker htl hU
      rw [mcuSlots_cons, predsAfter_append]
      obtain ⟨p', hp'⟩ : ∃ p', predsAfter p (slotUnits val (compSlots i v j (mcuShape cs i).1
        (mcuShape cs i).2)) = p' := ⟨_, rfl⟩
      rw [hp'] at hU hF2 ⊢
      have hstep : ∀ r, (t2.io.bs.marker = none → decodeMcu s v j ps temp1 t2 = r) →
          (t2.io.bs.marker = some .eoi → ((.ok temp1, t2) : Out (List (List I16)) × T) = r) →
          (∀ q, t2.io.bs.marker = some (.rst q) → decodeMcu s v j ps temp1 t2 = r) →
          decodeMcu s v j (i :: ps) temp t = r := by
        intro r r1 r2 r3
        rw [decodeMcu, M.bind_ok e1, M.bind_ok hcd, M.bind_ok (M.get_apply t2)]
        rcases hmark with hm | ⟨-, hm⟩ | ⟨q, -, hm⟩
        · rw [hm]; exact r1 hm
        · rw [hm]; exact r2 hm
        · rw [hm]; exact r3 q hm
      cases ps with
      | nil =>
        refine ⟨t2, temp1, hstep _ (fun _ => rfl) (fun _ => rfl) (fun _ _ => rfl), e2,
          ⟨fun _ => ⟨k', by simpa using hnext, hU⟩, fun hl hR => ?_⟩, ?_⟩
        · rcases hgo with h | h
          · rw [hl] at h; cases h
          · simp at h; omega
        · refine e4.congr fun x => ?_
          unfold mcuSlots
          rw [List.flatMap_cons, List.flatMap_nil, List.append_nil]
      | cons i' ps =>
        obtain ⟨t3, temp3, f1, f2, f3, f4⟩ := mcu_step hcs hT hv hj htl (i' :: ps) k' _ temp1 t2 p'
          (fun x hx => hlt x (List.mem_cons_of_mem _ hx)) hnd2 (by simp) hnext e4 (by
            intro x hx hin
            rcases List.mem_append.1 hin with he | he
            · have g1 := (mem_compSlots he).1
              have g2 := (mem_mcuSlots hx).1
              rw [g1] at g2
              exact hnd1 g2
            · exact hno x (by
                unfold mcuSlots
                rw [List.flatMap_cons]
                exact List.mem_append_right _ hx) he) hU hF2
        refine ⟨t3, temp3, hstep _ (fun _ => f1) (fun hm => ?_) (fun _ _ => f1), by rw [f2, e2], f3,
          f4.congr fun x => ?_⟩
        · exfalso
          have hl : last = true := by
            rcases hmark with h | ⟨h, -⟩ | ⟨q, -, h⟩
            · rw [h] at hm; cases hm
            · exact h
            · rw [h] at hm; cases hm
          have h64 : t2.io.bs.marker = none := by
            refine no_marker hU.rep ?_
            rw [List.length_append]
            refine hF2.far hl [] _ rfl ?_
            rw [mcuSlots_cons]
            intro hnil
            exact units_ne_nil hcs (hlt i' (by simp))
              (List.append_eq_nil_iff.1 (List.append_eq_nil_iff.1 hnil).1).1
          rw [h64] at hm
          cases hm
        · unfold mcuSlots
          rw [List.flatMap_cons (x := i)]
          simp only [List.mem_append]
          tauto

variable (cs) in
/-- The slots of some MCUs. -/
def stripSlots (l : List (Nat × Nat)) : List UnitSlot :=
  l.flatMap fun vj => mcuSlots cs vj.1 vj.2 (List.range cs.length)

theorem mcusUnits_append (n : Nat) (f : Nat → Nat × Nat) (m : Nat → Nat → Nat → Nat → List Int)
    (k a b : Nat) : mcusUnits n f m k (a + b) = mcusUnits n f m k a ++ mcusUnits n f m (k + a) b := by
  unfold mcusUnits
  rw [← List.flatMap_append, List.range'_append_1]

theorem samplePairs_flatMap {α : Type} (g : Nat → List α) (V Hh N : Nat) :
    (samplePairs V Hh).flatMap (fun x => g (N + (x.1 * Hh + x.2))) =
      (List.range' N (V * Hh)).flatMap g := by
  induction V with
  | zero => simp [samplePairs]
  | succ V ih =>
    have e : samplePairs (V + 1) Hh = samplePairs V Hh ++ (List.range Hh).map fun b => (V, b) := by
      unfold samplePairs
      rw [List.range_succ, List.flatMap_append, List.flatMap_cons, List.flatMap_nil, List.append_nil]
    rw [e, List.flatMap_append, ih, Nat.add_one_mul, ← List.range'_append_1, List.flatMap_append]
    congr 1
    rw [List.flatMap_map, List.range'_eq_map_range, List.flatMap_map]
    apply List.flatMap_congr
    intro x _
    rw [Nat.add_assoc]

variable (cs) in
/-- The MCUs from number `N` on, put into the slots of a strip. -/
theorem stripSlots_units (m : Nat → Nat → Nat → Nat → List Int) (V Hh N : Nat) :
    slotUnits (fun x : UnitSlot => m (N + (x.2.1 * Hh + x.2.2.1)) x.1 x.2.2.2.1 x.2.2.2.2)
      (stripSlots cs (samplePairs V Hh)) = mcusUnits cs.length (mcuShape cs) m N (V * Hh) := by
  unfold mcusUnits
  rw [← samplePairs_flatMap]
  unfold slotUnits stripSlots
  rw [List.map_flatMap]
  apply List.flatMap_congr
  intro x _
  unfold mcuSlots mcuUnits
  rw [List.map_flatMap]
  apply List.flatMap_congr
  intro i _
  unfold compSlots samplePairs
  rw [List.map_map, List.map_flatMap]
  apply List.flatMap_congr
  intro a _
  rw [List.map_map]
  rfl

theorem mem_stripSlots {V Hh i : Nat} {c : Component} (hc : cs[i]? = some c)
    {u : Nat × Nat × Nat × Nat} (hu : UnitOf V Hh c u) : (i, u) ∈ stripSlots cs (samplePairs V Hh) := by
  obtain ⟨h1, h2, h3, h4⟩ := hu
  refine List.mem_flatMap.2 ⟨(u.1, u.2.1), mem_samplePairs.2 ⟨h1, h2⟩, ?_⟩
  refine List.mem_flatMap.2 ⟨i, List.mem_range.2 (List.getElem?_eq_some_iff.1 hc).1, ?_⟩
  rw [mcuShape_some hc]
  exact List.mem_map.2 ⟨(u.2.2.1, u.2.2.2), mem_samplePairs.2 ⟨h3, h4⟩, rfl⟩

variable (cs) in
/-- The buffers of a strip hold the MCUs from number `N` on. -/
def HoldsMcus (s : Scan) (keep : Nat) (m : Nat → Nat → Nat → Nat → List Int) (N : Nat)
    (temp : List (List I16)) : Prop :=
  ∀ i c, cs[i]? = some c → i < keep → ∃ buf, temp[i]? = some buf ∧
    buf.length = 64 * (s.mcuWidth * c.verticalSample * c.horizontalSample * s.bias) ∧
    ∀ u, UnitOf s.bias s.mcuWidth c u → ∀ k, blockStart s c u.1 u.2.1 u.2.2.1 u.2.2.2 = 64 * k →
      blockAt buf k = coded (m (N + (u.1 * s.mcuWidth + u.2.1)) i u.2.2.1 u.2.2.2)

/-- The job of a strip. -/
def stripJob (s : Scan) (temp : List (List I16)) : Out (List UInt8) :=
  postProcess s.idct s.color s.comps s.inCs s.outCs s.width temp (List.replicate s.chunk 0)

theorem blockAt_zero {n k : Nat} (h : k < n) :
    blockAt (List.replicate (64 * n) 0) k = List.replicate 64 (0 : I16) := by
  unfold blockAt
  rw [List.drop_replicate, List.take_replicate]
  congr 1
  omega

theorem length_samplePairs (V Hh : Nat) : (samplePairs V Hh).length = V * Hh := by
  unfold samplePairs
  rw [List.length_flatMap]
  simp

end

end Zune
