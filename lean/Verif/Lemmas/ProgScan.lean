import Verif.Lemmas.ProgBlock
import Verif.Lemmas.GrayFile
import Verif.Lemmas.Units
import Verif.Model.Prog
/-! Whole scans of one component of a progressive image. -/

namespace Zune
open Spec

/-! ### The buffer -/

/-- The coefficients of blocks of which `lev` is known. -/
def bufOf (lev : Nat → Option Nat) (blocks : List (List Int)) : List I16 :=
  codedRow (blocks.map (approxBlock lev))

theorem bufOf_length (lev : Nat → Option Nat) (blocks : List (List Int)) :
    (bufOf lev blocks).length = blocks.length * 64 := by
  rw [bufOf, codedRow_length, List.length_map]

theorem bufOf_append (lev : Nat → Option Nat) (a b : List (List Int)) :
    bufOf lev (a ++ b) = bufOf lev a ++ bufOf lev b := by
  simp [bufOf, codedRow]

theorem bufOf_cons (lev : Nat → Option Nat) (a : List Int) (b : List (List Int)) :
    bufOf lev (a :: b) = coded (approxBlock lev a) ++ bufOf lev b := by
  simp [bufOf, codedRow]

theorem bufOf_congr {lev lev' : Nat → Option Nat} {l : List (List Int)}
    (h : ∀ b ∈ l, coded (approxBlock lev b) = coded (approxBlock lev' b)) :
    bufOf lev l = bufOf lev' l := by
  unfold bufOf codedRow
  rw [List.map_map, List.map_map]
  congr 1
  exact List.map_congr_left h

/-- The blocks at the positions `pos` of a buffer. -/
def Holds (pos : Nat → Nat) (lev : Nat → Option Nat) (blocks : List (List Int)) (buf : List I16) : Prop :=
  ∀ n b, blocks[n]? = some b → blockAt buf (pos n) = coded (approxBlock lev b)

/-- Position of block `n` of a component that is `mw` blocks wide in a buffer with rows of `S` blocks. -/
def gridPos (mw S n : Nat) : Nat := n / mw * S + n % mw

theorem gridPos_self (mw n : Nat) : gridPos mw mw n = n := Nat.div_add_mod' n mw

theorem gridPos_at {mw S i j : Nat} (hj : j < mw) : gridPos mw S (i * mw + j) = i * S + j := by
  unfold gridPos
  rw [Nat.mul_comm i mw, Nat.mul_add_div (by omega), Nat.div_eq_of_lt hj, Nat.mul_add_mod,
    Nat.mod_eq_of_lt hj, Nat.add_zero]

theorem gridPos_inj {mw S a b : Nat} (h0 : 0 < mw) (hS : mw ≤ S) (h : gridPos mw S a = gridPos mw S b) :
    a = b := by
  have key : ∀ n, gridPos mw S n / S = n / mw ∧ gridPos mw S n % S = n % mw := by
    intro n
    have hn : n % mw < S := Nat.lt_of_lt_of_le (Nat.mod_lt _ h0) hS
    unfold gridPos
    rw [Nat.mul_comm _ S, Nat.mul_add_div (by omega), Nat.div_eq_of_lt hn, Nat.mul_add_mod,
      Nat.mod_eq_of_lt hn]
    exact ⟨Nat.add_zero _, rfl⟩
  rw [← Nat.div_add_mod a mw, ← Nat.div_add_mod b mw, ← (key a).1, ← (key a).2, h, (key b).1, (key b).2]

theorem gridPos_lt {mw S mh n : Nat} (hS : mw ≤ S) (h : n < mh * mw) : gridPos mw S n < mh * S := by
  have h0 : 0 < mw := Nat.pos_of_ne_zero fun hz => by rw [hz] at h; omega
  unfold gridPos
  have h1 : n / mw < mh := (Nat.div_lt_iff_lt_mul h0).2 h
  have h2 := Nat.mod_lt n h0
  have h3 : (n / mw + 1) * S ≤ mh * S := Nat.mul_le_mul_right _ h1
  rw [Nat.add_one_mul] at h3
  omega

theorem bufOf_holds (lev : Nat → Option Nat) (blocks : List (List Int)) :
    Holds (fun n => n) lev blocks (bufOf lev blocks) := by
  intro n b hb
  have hn : n < blocks.length := (List.getElem?_eq_some_iff.1 hb).1
  unfold bufOf
  rw [blockAt_codedRow _ (by rw [List.length_map]; exact hn), List.getD_eq_getElem?_getD,
    List.getElem?_map, hb]
  rfl

theorem holds_bufOf {lev : Nat → Option Nat} {blocks : List (List Int)} {buf : List I16}
    (hl : buf.length = 64 * blocks.length) (h : Holds (fun n => n) lev blocks buf) :
    buf = bufOf lev blocks := by
  have key : ∀ (l : List I16) x, l[x]? = (blockAt l (x / 64))[x % 64]? := by
    intro l x
    unfold blockAt
    rw [List.getElem?_take_of_lt (Nat.mod_lt _ (by decide)), List.getElem?_drop]
    congr 1
    omega
  refine List.ext_getElem? fun x => ?_
  by_cases hx : x < 64 * blocks.length
  · rw [key, key (bufOf lev blocks)]
    have hb : blocks[x / 64]? = some blocks[x / 64] := List.getElem?_eq_getElem (by omega)
    have h1 := h _ _ hb
    have h2 := bufOf_holds lev blocks _ _ hb
    dsimp only at h1 h2
    rw [h1, h2]
  · rw [List.getElem?_eq_none (by omega), List.getElem?_eq_none (by rw [bufOf_length]; omega)]

/-! ### The loop -/

/-- The decoder in a scan of component `k`: `D q n` has the prediction `q` and `n` units to go. -/
structure ScanDec (D : I32 → Nat → Decoder) (d : Decoder) (k : Nat) (c : Component) : Prop where
  comp : ∀ q n, (D q n).components[k]? = some { c with dcPred := q }
  pred : ∀ q n q', { D q n with
    components := (D q n).components.modify k fun c => { c with dcPred := q' } } = D q' n
  todo : ∀ q n, (D q n).todo = n
  count : ∀ q n m, { D q n with todo := m } = D q m
  dcs : ∀ q n, (D q n).dcTables = d.dcTables
  acs : ∀ q n, (D q n).acTables = d.acTables
  start : ∀ q n, (D q n).specStart = d.specStart
  high : ∀ q n, (D q n).succHigh = d.succHigh

section
variable {D : I32 → Nat → Decoder} {d : Decoder} {k S L : Nat} {c : Component} {mw mh : Nat}

theorem ScanDec.idx (SD : ScanDec D d k c) (q : I32) (n : Nat) {t : T} :
    M.idx (D q n).components k t = (.ok { c with dcPred := q }, t) := by
  unfold M.idx
  rw [SD.comp]

theorem progLoop_spec (SD : ScanDec D d k c) (hst : c.widthStride / 8 = S) (hS : mw ≤ S)
    (hL : mh * S ≤ L) {P : Nat → T → List I16 → Prop}
    (hP : ∀ n t buf, P n t buf → (∃ q todo, t.dec = D q todo) ∧ buf.length = 64 * L)
    (step : ∀ i j t buf, i < mh → j < mw → P (i * mw + j) t buf →
      ∃ i' j' b t1 t2, progBlock k mw i j (blockAt buf (i * S + j)) t =
          (.ok (i', j', b), t1) ∧ countDown t1 = (.ok (), t2) ∧ j' < mw ∧ i' < mh ∧
        i * mw + j ≤ i' * mw + j' ∧ P (i' * mw + j' + 1) t2 (writeAt buf (64 * (i * S + j)) b)) :
    ∀ (fuel i j : Nat) (t : T) (bufs : List (List I16)) (buf : List I16), bufs[k]? = some buf → j ≤ mw →
      (i < mh ∨ i = mh ∧ j = 0) → (mh - i) * (mw + 1) - j + 1 ≤ fuel → P (i * mw + j) t buf →
      ∃ t' buf', progLoop k mw mh fuel i j bufs t = (.ok (bufs.set k buf'), t') ∧
        P (mh * mw) t' buf'
  | 0, i, j, t, bufs, buf, hbk, hj, hi, hf, h => absurd hf (by omega)
  | fuel + 1, i, j, t, bufs, buf, hbk, hj, hi, hf, h => by
    unfold progLoop
    rcases hi with hi | ⟨rfl, rfl⟩
    · rw [if_pos hi]
      have hm : (mh - i) * (mw + 1) = (mh - (i + 1)) * (mw + 1) + (mw + 1) := by
        rw [show mh - i = mh - (i + 1) + 1 by omega, Nat.add_one_mul]
      by_cases hjl : j < mw
      · rw [if_pos hjl]
        obtain ⟨⟨q, todo, hd⟩, hl⟩ := hP _ _ _ h
        obtain ⟨i', j', b, t1, t2, e1, e2, hj', hi', hle, h'⟩ := step i j t buf hi hjl h
        have h1 : M.idx t.dec.components k t = (.ok { c with dcPred := q }, t) := by
          rw [hd]; exact SD.idx q todo
        have hpos : progPos { c with dcPred := q } i j = 64 * (i * S + j) := by
          unfold progPos
          dsimp only
          rw [hst, Nat.add_comm]
        have h2 : M.unwrap bufs[k]? t = (.ok buf, t) := by rw [hbk]; rfl
        have hlt : i * S + j + 1 ≤ L := by
          have : (i + 1) * S ≤ mh * S := Nat.mul_le_mul_right _ hi
          rw [Nat.add_one_mul] at this
          omega
        rw [M.bind_ok (M.get_apply t), M.bind_ok h1]
        dsimp only
        rw [hpos, M.bind_ok h2, if_pos (by omega)]
        have e1' : progBlock k mw i j ((buf.drop (64 * (i * S + j))).take 64) t = (.ok (i', j', b), t1) := e1
        rw [M.bind_ok e1']
        dsimp only
        rw [M.bind_ok e2]
        have hk : k < bufs.length := (List.getElem?_eq_some_iff.1 hbk).1
        obtain ⟨t', buf', g1, g2⟩ := progLoop_spec SD hst hS hL hP step fuel i' (j' + 1) t2
          (bufs.set k (writeAt buf (64 * (i * S + j)) b)) _ (List.getElem?_set_self hk) (by omega)
          (Or.inl hi') (by
            rcases Nat.lt_trichotomy i' i with hlt' | rfl | hgt
            · exfalso
              have : (i' + 1) * mw ≤ i * mw := Nat.mul_le_mul_right _ hlt'
              rw [Nat.add_one_mul] at this
              omega
            · omega
            · have : (mh - i') * (mw + 1) ≤ (mh - (i + 1)) * (mw + 1) :=
                Nat.mul_le_mul_right _ (by omega)
              omega) h'
        rw [List.set_set] at g1
        exact ⟨t', buf', g1, g2⟩
      · rw [if_neg hjl]
        have hjm : j = mw := by omega
        refine progLoop_spec SD hst hS hL hP step fuel (i + 1) 0 t bufs buf hbk (by omega) (by omega)
          (by omega) ?_
        rw [Nat.add_one_mul, Nat.add_zero]
        rw [hjm] at h
        exact h
    · rw [if_neg (by omega)]
      refine ⟨t, buf, ?_, h⟩
      have : bufs.set k buf = bufs := by
        refine List.ext_getElem? fun n => ?_
        rw [List.getElem?_set]
        split
        · rename_i e
          subst e
          rw [if_pos (List.getElem?_eq_some_iff.1 hbk).1, hbk]
        · rfl
      rw [this]
      rfl

/-- What one visit of the loop does. -/
inductive Visit (k mw : Nat) (lev lev' : Nat → Option Nat) (State : List (List Int) → T → Prop)
    (i j : Nat) : List (List Int) → T → Prop
  | block {b R t t1 t2} : progBlock k mw i j (coded (approxBlock lev b)) t =
        (.ok (i, j, coded (approxBlock lev' b)), t1) → countDown t1 = (.ok (), t2) → State R t2 →
      Visit k mw lev lev' State i j (b :: R) t
  | skip {b zs R t t1 t2} : progBlock k mw i j (coded (approxBlock lev b)) t =
        (.ok (i + (j + zs.length) / mw, (j + zs.length) % mw, coded (approxBlock lev b)), t1) →
      countDown t1 = (.ok (), t2) →
      (∀ z ∈ b :: zs, coded (approxBlock lev z) = coded (approxBlock lev' z)) → State R t2 →
      Visit k mw lev lev' State i j (b :: (zs ++ R)) t

theorem progLoop_scan (SD : ScanDec D d k c) (hst : c.widthStride / 8 = S) (hSw : mw ≤ S)
    (hL : mh * S ≤ L) {lev lev' : Nat → Option Nat}
    {State : List (List Int) → T → Prop} {blocks : List (List Int)} (hn : blocks.length = mh * mw)
    (hS : ∀ R t, State R t → ∃ q todo, t.dec = D q todo)
    (hvisit : ∀ i j b R t, (∃ done, blocks = done ++ b :: R) → State (b :: R) t →
      Visit k mw lev lev' State i j (b :: R) t)
    {bufs : List (List I16)} {buf : List I16} (hbk : bufs[k]? = some buf) (hlen : buf.length = 64 * L)
    (hh : Holds (gridPos mw S) lev blocks buf)
    {t : T} (h0 : State blocks t) (fuel : Nat) (hf : (mw + 1) * mh + 1 ≤ fuel) :
    ∃ t' buf', progLoop k mw mh fuel 0 0 bufs t = (.ok (bufs.set k buf'), t') ∧ State [] t' ∧
      buf'.length = 64 * L ∧ Holds (gridPos mw S) lev' blocks buf' := by
  obtain ⟨t', buf', e, hP⟩ := progLoop_spec SD hst hSw hL (P := fun n t buf =>
      ∃ done R, blocks = done ++ R ∧ done.length = n ∧ buf.length = 64 * L ∧
        Holds (gridPos mw S) lev' done buf ∧ Holds (fun m => gridPos mw S (n + m)) lev R buf ∧ State R t)
    (by
      rintro n t buf ⟨done, R, e1, e2, e3, -, -, h⟩
      exact ⟨hS _ _ h, e3⟩)
    (by
      rintro i j t buf hi hj ⟨done, R, e1, e2, e3, e4, e5, h⟩
      have hlen : done.length + R.length = mh * mw := by rw [← List.length_append, ← e1, hn]
      have hlt : i * mw + j + 1 ≤ mh * mw := by
        have : (i + 1) * mw ≤ mh * mw := Nat.mul_le_mul_right _ hi
        rw [Nat.add_one_mul] at this
        omega
      obtain ⟨b, R, rfl⟩ : ∃ b R', R = b :: R' := by
        cases R with
        | nil => simp only [List.length_nil] at hlen; omega
        | cons b R => exact ⟨b, R, rfl⟩
      have hslice : blockAt buf (i * S + j) = coded (approxBlock lev b) := by
        have := e5 0 b rfl
        dsimp only at this
        rw [Nat.add_zero, gridPos_at hj] at this
        exact this
      have hposlt : i * S + j < L := by
        have := gridPos_lt (S := S) hSw (show i * mw + j < mh * mw by omega)
        rw [gridPos_at hj] at this
        omega
      have hself : ∀ x : List Int, blockAt (writeAt buf (64 * (i * S + j)) (coded x)) (i * S + j) = coded x := by
        intro x
        rw [blockAt_writeAt e3 (coded_length _) hposlt, if_pos rfl]
      have hother : ∀ (x : List Int) n, n ≠ i * mw + j →
          blockAt (writeAt buf (64 * (i * S + j)) (coded x)) (gridPos mw S n) =
            blockAt buf (gridPos mw S n) := by
        intro x n hne
        rw [blockAt_writeAt e3 (coded_length _) hposlt, if_neg]
        intro he
        rw [← gridPos_at hj] at he
        exact hne (gridPos_inj (by omega) hSw he)
      have hwlen : ∀ x : List Int, (writeAt buf (64 * (i * S + j)) (coded x)).length = 64 * L := by
        intro x
        rw [length_writeAt (by rw [coded_length]; omega), e3]
      rw [hslice]
      have hv := hvisit i j b R t ⟨done, e1⟩ h
      obtain ⟨Lb, hLb⟩ : ∃ L, b :: R = L := ⟨_, rfl⟩
      rw [hLb] at hv
      -- the blocks that are done after a visit
      have hdone : ∀ (x : List Int) (zs : List (List Int)), (∃ R', R = zs ++ R') →
          coded x = coded (approxBlock lev' b) →
          (∀ z ∈ zs, coded (approxBlock lev z) = coded (approxBlock lev' z)) →
          Holds (gridPos mw S) lev' (done ++ b :: zs) (writeAt buf (64 * (i * S + j)) (coded x)) := by
        rintro x zs ⟨R', rfl⟩ hx hz m y hy
        rcases Nat.lt_trichotomy m (i * mw + j) with hm | hm | hm
        · rw [hother _ _ (by omega)]
          rw [List.getElem?_append_left (by omega)] at hy
          exact e4 m y hy
        · subst hm
          rw [List.getElem?_append_right (by omega), e2, Nat.sub_self] at hy
          cases hy
          rw [gridPos_at hj, hself, hx]
        · rw [hother _ _ (by omega)]
          obtain ⟨r, rfl⟩ : ∃ r, m = i * mw + j + (r + 1) := ⟨m - (i * mw + j) - 1, by omega⟩
          rw [List.getElem?_append_right (by omega), e2, Nat.add_sub_cancel_left,
            List.getElem?_cons_succ] at hy
          have hr : r < zs.length := (List.getElem?_eq_some_iff.1 hy).1
          have := e5 (r + 1) y (by
            rw [List.getElem?_cons_succ, List.getElem?_append_left hr]
            exact hy)
          dsimp only at this
          rw [this, hz y (List.mem_of_getElem? hy)]
      have hrest : ∀ (x : List Int) (zs R' : List (List Int)), R = zs ++ R' →
          Holds (fun m => gridPos mw S (i * mw + j + zs.length + 1 + m)) lev R'
            (writeAt buf (64 * (i * S + j)) (coded x)) := by
        rintro x zs R' rfl m y hy
        dsimp only
        rw [hother _ _ (by omega)]
        have := e5 (zs.length + m + 1) y (by
          rw [List.getElem?_cons_succ, List.getElem?_append_right (by omega), Nat.add_sub_cancel_left]
          exact hy)
        dsimp only at this
        rw [← this]
        congr 2
        omega
      cases hv with
      | block p1 p2 p3 =>
        cases hLb
        refine ⟨i, j, _, _, _, p1, p2, hj, hi, Nat.le_refl _, done ++ [b], R, by simp [e1], by simp [e2],
          hwlen _, hdone _ [] ⟨R, rfl⟩ rfl (by simp), hrest _ [] R rfl, p3⟩
      | @skip b' zs R' t1 t1 t2 p1 p2 p3 p4 =>
        injection hLb with hb hR
        subst hb hR
        have hz : (i + (j + zs.length) / mw) * mw + (j + zs.length) % mw = i * mw + j + zs.length := by
          rw [Nat.add_mul, Nat.add_assoc, Nat.div_add_mod' (j + zs.length) mw, ← Nat.add_assoc]
        have hj' : (j + zs.length) % mw < mw := Nat.mod_lt _ (by omega)
        simp only [List.length_cons, List.length_append] at hlen
        refine ⟨_, _, _, _, _, p1, p2, hj', ?_, by omega, done ++ b :: zs, R', by simp [e1],
          by rw [hz]; simp [e2]; omega, hwlen _, hdone _ zs ⟨R', rfl⟩ (p3 b (by simp))
            (fun z hz => p3 z (by simp [hz])), ?_, p4⟩
        · by_contra hge
          have : mh * mw ≤ (i + (j + zs.length) / mw) * mw := Nat.mul_le_mul_right _ (by omega)
          omega
        · rw [hz]
          exact hrest _ zs R' rfl)
    fuel 0 0 t bufs buf hbk (by omega) (by omega) (by rw [Nat.mul_comm] at hf; omega)
    ⟨[], blocks, rfl, by simp, hlen, by intro n b hb; simp at hb, by simpa using hh, h0⟩
  obtain ⟨done, R, e1, e2, e3, e4, -, h⟩ := hP
  have : R = [] := by
    have := congrArg List.length e1
    rw [List.length_append, hn] at this
    exact List.eq_nil_of_length_eq_zero (by omega)
  subst this
  rw [List.append_nil] at e1
  subst e1
  exact ⟨t', buf', e, h, e3, e4⟩

end


/-! ### The four kinds of scans -/

section
variable {D : I32 → Nat → Decoder} {d : Decoder} {k : Nat} {c : Component} {mw mh reserve : Nat} {q : I32}
  {lev : Nat → Option Nat}
  {ss se al : Nat} {blocks : List (List Int)} {counts values : List Nat} {prog : Bool}
  {tab : HuffmanTable} {word : Nat → List Bool} {rest : List Bool} {tail : Option (UInt8 × List UInt8)}

/-- The decoder inside a scan with `R` blocks to go. -/
structure At (D : I32 → Nat → Decoder) (d : Decoder) (reserve : Nat) (q : I32) (R : List (List Int)) (t : T) :
    Prop where
  dec : ∃ todo, t.dec = D q todo ∧ R.length + reserve ≤ todo
  low : t.io.bs.succLow = d.succLow
  start : t.io.bs.specStart = d.specStart
  stop : t.io.bs.specEnd = d.specEnd

theorem At.count {R R' : List (List Int)} {b : List Int} {q q' : I32} {t : T}
    (h : At D d reserve q (b :: R) t) (SD : ScanDec D d k c) (hR : R'.length ≤ R.length) {io : B} {todo : Nat}
    (hr : 1 ≤ reserve) (hd : t.dec = D q todo) (hk : Kept t.io io) (e : Nat) :
    ∃ t2, countDown { t with
          dec := D q' todo, io := { io with bs := { io.bs with eobRun := e } } } = (.ok (), t2) ∧
      At D d reserve q' R' t2 ∧ t2.io = { io with bs := { io.bs with eobRun := e } } := by
  obtain ⟨todo', hd', hle⟩ := h.dec
  have ht : todo' = todo := by
    have := congrArg Decoder.todo (hd'.symm.trans hd)
    rw [SD.todo, SD.todo] at this
    exact this
  subst ht
  simp only [List.length_cons] at hle
  refine ⟨_, countDown_more (t := { t with
    dec := D q' todo', io := { io with bs := { io.bs with eobRun := e } } })
      (show 1 < (D q' todo').todo by rw [SD.todo]; omega),
      ⟨⟨todo' - 1, ?_, by omega⟩, ?_, ?_, ?_⟩, rfl⟩
  · show { D q' todo' with todo := (D q' todo').todo - 1 } = _
    rw [SD.todo]
    exact SD.count _ _ _
  · exact hk.low.trans h.low
  · exact hk.start.trans h.start
  · exact hk.stop.trans h.stop

theorem eob_same (io : B) : { io with bs := { io.bs with eobRun := io.bs.eobRun } } = io := rfl

theorem progBlock_dcFirst {i j todo : Nat} {block : List I16} {t : T} {v : I16} {p : I32} {io : B}
    (SD : ScanDec D d k c) (hd : t.dec = D q todo) (hs : d.specStart = 0) (hh : d.succHigh = 0)
    (htab : d.dcTables[c.dcHuffTable &&& 3]? = some (some tab)) {x : I16} (hx : block[0]? = some x)
    (h : decodeProgDcFirst tab q t.io = (.ok (v, p), io)) :
    progBlock k mw i j block t =
      (.ok (i, j, block.set 0 v), { t with dec := D p todo, io := io }) := by
  obtain ⟨dec, io0, jobs⟩ := t
  dsimp only at hd h
  subst hd
  unfold progBlock
  have hc : M.idx (D q todo).components k (⟨D q todo, io0, jobs⟩ : T) =
      (.ok { c with dcPred := q }, (⟨D q todo, io0, jobs⟩ : T)) := SD.idx q todo
  have ht : progTable (D q todo).dcTables (c.dcHuffTable &&& (MAX_COMPONENTS - 1))
      (⟨D q todo, io0, jobs⟩ : T) =
      (.ok tab, (⟨D q todo, io0, jobs⟩ : T)) := by
    unfold progTable
    rw [show (D q todo).dcTables[c.dcHuffTable &&& (MAX_COMPONENTS - 1)]? = some (some tab) by rw [SD.dcs]; exact htab]
  have hb : M.idx block 0 (⟨D q todo, io0, jobs⟩ : T) =
      (.ok x, (⟨D q todo, io0, jobs⟩ : T)) := by
    unfold M.idx
    rw [hx]
  rw [M.bind_ok (M.get_apply _)]
  dsimp only
  rw [M.bind_ok hc, if_pos (show (D q todo).specStart = 0 by rw [SD.start]; exact hs)]
  dsimp only
  rw [M.bind_ok ht, M.bind_ok hb]
  have hdc : progDc k x tab (⟨D q todo, io0, jobs⟩ : T) =
      (.ok v, (⟨D p todo, io, jobs⟩ : T)) := by
    unfold progDc
    rw [M.bind_ok (M.get_apply _)]
    dsimp only
    rw [M.bind_ok hc, if_pos (show (D q todo).succHigh = 0 by rw [SD.high]; exact hh)]
    dsimp only
    have hl : liftB (decodeProgDcFirst tab q) (⟨D q todo, io0, jobs⟩ : T) =
        (.ok (v, p), (⟨D q todo, io, jobs⟩ : T)) := by
      unfold liftB
      rw [h]
    have hp : setPred k p (⟨D q todo, io, jobs⟩ : T) = (.ok (), (⟨D p todo, io, jobs⟩ : T)) := by
      unfold setPred
      dsimp only
      rw [SD.pred]
    rw [M.bind_ok hl]
    dsimp only
    rw [M.bind_ok hp]
    rfl
  rw [M.bind_ok hdc]
  rfl

theorem progBlock_dcRefine {i j todo : Nat} {block : List I16} {t : T} {v : I16} {io : B}
    (SD : ScanDec D d k c) (hd : t.dec = D q todo) (hs : d.specStart = 0) (hh : d.succHigh ≠ 0)
    (htab : d.dcTables[c.dcHuffTable &&& 3]? = some (some tab)) {x : I16} (hx : block[0]? = some x)
    (h : decodeProgDcRefine x t.io = (.ok v, io)) :
    progBlock k mw i j block t =
      (.ok (i, j, block.set 0 v), { t with dec := D q todo, io := io }) := by
  obtain ⟨dec, io0, jobs⟩ := t
  dsimp only at hd h
  subst hd
  unfold progBlock
  have hc : M.idx (D q todo).components k (⟨D q todo, io0, jobs⟩ : T) =
      (.ok { c with dcPred := q }, (⟨D q todo, io0, jobs⟩ : T)) := SD.idx q todo
  have ht : progTable (D q todo).dcTables (c.dcHuffTable &&& (MAX_COMPONENTS - 1))
      (⟨D q todo, io0, jobs⟩ : T) =
      (.ok tab, (⟨D q todo, io0, jobs⟩ : T)) := by
    unfold progTable
    rw [show (D q todo).dcTables[c.dcHuffTable &&& (MAX_COMPONENTS - 1)]? = some (some tab) by rw [SD.dcs]; exact htab]
  have hb : M.idx block 0 (⟨D q todo, io0, jobs⟩ : T) =
      (.ok x, (⟨D q todo, io0, jobs⟩ : T)) := by
    unfold M.idx
    rw [hx]
  rw [M.bind_ok (M.get_apply _)]
  dsimp only
  rw [M.bind_ok hc, if_pos (show (D q todo).specStart = 0 by rw [SD.start]; exact hs)]
  dsimp only
  rw [M.bind_ok ht, M.bind_ok hb]
  have hdc : progDc k x tab (⟨D q todo, io0, jobs⟩ : T) =
      (.ok v, (⟨D q todo, io, jobs⟩ : T)) := by
    unfold progDc
    rw [M.bind_ok (M.get_apply _)]
    dsimp only
    rw [M.bind_ok hc, if_neg (show ¬ (D q todo).succHigh = 0 by rw [SD.high]; exact hh)]
    unfold liftB
    rw [h]
  rw [M.bind_ok hdc]
  rfl

theorem progBlock_ac {i j todo : Nat} {block blk : List I16} {t : T} {io : B}
    (SD : ScanDec D d k c) (hd : t.dec = D q todo) (hs : d.specStart ≠ 0)
    (htab : d.acTables[c.acHuffTable]? = some (some tab))
    (h : d.succHigh = 0 ∧ t.io.bs.eobRun = 0 ∧ decodeMcuAcFirst tab block t.io = (.ok blk, io) ∨
      d.succHigh ≠ 0 ∧ decodeMcuAcRefine tab block t.io = (.ok blk, io)) :
    progBlock k mw i j block t =
      (.ok (i, j, blk), { t with dec := D q todo, io := io }) := by
  obtain ⟨dec, io0, jobs⟩ := t
  dsimp only at hd h
  subst hd
  unfold progBlock
  have hc : M.idx (D q todo).components k (⟨D q todo, io0, jobs⟩ : T) =
      (.ok { c with dcPred := q }, (⟨D q todo, io0, jobs⟩ : T)) := SD.idx q todo
  have ht : progTable (D q todo).acTables c.acHuffTable
      (⟨D q todo, io0, jobs⟩ : T) =
      (.ok tab, (⟨D q todo, io0, jobs⟩ : T)) := by
    unfold progTable
    rw [show (D q todo).acTables[c.acHuffTable]? = some (some tab) by rw [SD.acs]; exact htab]
  rw [M.bind_ok (M.get_apply _)]
  dsimp only
  rw [M.bind_ok hc, if_neg (show ¬ (D q todo).specStart = 0 by rw [SD.start]; exact hs)]
  dsimp only
  rw [M.bind_ok ht]
  rcases h with ⟨hh, he, h⟩ | ⟨hh, h⟩
  · rw [if_pos (show (D q todo).succHigh = 0 by rw [SD.high]; exact hh), if_neg (by omega)]
    have hl : liftB (decodeMcuAcFirst tab block) (⟨D q todo, io0, jobs⟩ : T) =
        (.ok blk, (⟨D q todo, io, jobs⟩ : T)) := by
      unfold liftB
      rw [h]
    rw [M.bind_ok hl]
    rfl
  · rw [if_neg (show ¬ (D q todo).succHigh = 0 by rw [SD.high]; exact hh)]
    have hl : liftB (decodeMcuAcRefine tab block) (⟨D q todo, io0, jobs⟩ : T) =
        (.ok blk, (⟨D q todo, io, jobs⟩ : T)) := by
      unfold liftB
      rw [h]
    rw [M.bind_ok hl]
    rfl

theorem progBlock_skip {i j todo n : Nat} {block : List I16} {t : T}
    (SD : ScanDec D d k c) (hd : t.dec = D q todo) (hs : d.specStart ≠ 0)
    (htab : d.acTables[c.acHuffTable]? = some (some tab)) (hh : d.succHigh = 0)
    (he : t.io.bs.eobRun = n + 1) :
    progBlock k mw i j block t =
      (.ok (i + (j + n) / mw, (j + n) % mw, block),
        { t with dec := D q todo, io := { t.io with bs := { t.io.bs with eobRun := 0 } } }) := by
  obtain ⟨dec, io0, jobs⟩ := t
  dsimp only at hd he
  subst hd
  unfold progBlock
  have hc : M.idx (D q todo).components k (⟨D q todo, io0, jobs⟩ : T) =
      (.ok { c with dcPred := q }, (⟨D q todo, io0, jobs⟩ : T)) := SD.idx q todo
  have ht : progTable (D q todo).acTables c.acHuffTable
      (⟨D q todo, io0, jobs⟩ : T) =
      (.ok tab, (⟨D q todo, io0, jobs⟩ : T)) := by
    unfold progTable
    rw [show (D q todo).acTables[c.acHuffTable]? = some (some tab) by rw [SD.acs]; exact htab]
  rw [M.bind_ok (M.get_apply _)]
  dsimp only
  rw [M.bind_ok hc, if_neg (show ¬ (D q todo).specStart = 0 by rw [SD.start]; exact hs)]
  dsimp only
  rw [M.bind_ok ht, if_pos (show (D q todo).succHigh = 0 by rw [SD.high]; exact hh), if_pos (by omega), he]
  rfl


/-! The states between the blocks of a scan, by the blocks to go. -/

/-- First DC scan. -/
def DcFirstAt (D : I32 → Nat → Decoder) (d : Decoder) (reserve al : Nat) (word : Nat → List Bool)
    (rest : List Bool) (tail : Option (UInt8 × List UInt8)) (blocks R : List (List Int)) (t : T) : Prop :=
  ∃ p pre, At D d reserve (BitVec.ofInt 32 p) R t ∧
    Rep t.io (dcFirstBits word (dcDiffs al p R) ++ rest) tail ∧
    dcDiffs al 0 blocks = pre ++ dcDiffs al p R ∧
    ∀ x ∈ pre.getLast?, t.io.bs.marker = none → 16 ≤ t.io.bs.bitsLeft + (dcCode word x).length

theorem dcFirst_visit (SD : ScanDec D d k c) (hr : 1 ≤ reserve) (hs : d.specStart = 0) (hh : d.succHigh = 0)
    (hal : d.succLow = al) (htab : d.dcTables[c.dcHuffTable &&& 3]? = some (some tab))
    (ht : Accepted counts values true prog tab) (hblk : ∀ b ∈ blocks, BlockOk b)
    (hcode : ∀ x ∈ dcDiffs al 0 blocks, (word (category x), category x) ∈ codeBook counts values ∧
      (dcCode word x).length ≤ 16) (i j : Nat) (b : List Int) (R : List (List Int)) (t : T)
    (hdone : ∃ done, blocks = done ++ b :: R)
    (h : DcFirstAt D d reserve al word rest tail blocks (b :: R) t) :
    Visit k mw lev (setLevel lev 0 0 al) (DcFirstAt D d reserve al word rest tail blocks) i j (b :: R) t := by
  obtain ⟨p, pre, ha, hrep, hpre, -⟩ := h
  obtain ⟨todo, hd, -⟩ := ha.dec
  have hb : BlockOk b := by
    obtain ⟨done, e⟩ := hdone
    exact hblk b (by rw [e]; simp)
  obtain ⟨hm, h16⟩ := hcode (pointDc al (dcOfBlock b) - p) (by rw [hpre]; simp [dcDiffs])
  rw [dcDiffs, dcFirstBits, List.flatMap_cons, List.append_assoc] at hrep
  obtain ⟨io, e1, hrep', hk, hlate⟩ := dcFirst_block ht hm h16 (ha.low.trans hal) hrep
  have hp := progBlock_dcFirst (mw := mw) (i := i) (j := j) SD hd hs hh htab (coded_get_dc (lev := lev) hb.len) e1
  rw [coded_set_dc hb.len rfl] at hp
  obtain ⟨t2, hc, ha', hio⟩ := ha.count (R' := R) (q' := BitVec.ofInt 32 (pointDc al (dcOfBlock b)))
    SD (Nat.le_refl _) hr hd hk io.bs.eobRun
  refine Visit.block hp hc ⟨_, pre ++ [pointDc al (dcOfBlock b) - p], ha', ?_, ?_, ?_⟩
  · rw [hio]; exact hrep'
  · rw [hpre, dcDiffs, List.append_assoc]; rfl
  · intro x hx
    rw [List.getLast?_concat] at hx
    cases hx
    rw [hio]
    exact hlate

/-- Refinement of the DC coefficients. -/
def DcRefineAt (D : I32 → Nat → Decoder) (d : Decoder) (reserve al : Nat)
    (rest : List Bool) (tail : Option (UInt8 × List UInt8)) (R : List (List Int)) (t : T) : Prop :=
  ∃ q, At D d reserve q R t ∧ Rep t.io (dcRefineBits al R ++ rest) tail

theorem dcRefine_visit (SD : ScanDec D d k c) (hr : 1 ≤ reserve) (hs : d.specStart = 0) (hh : d.succHigh ≠ 0)
    (hal : d.succLow = al) (htab : d.dcTables[c.dcHuffTable &&& 3]? = some (some tab))
    (hlev : lev 0 = some (al + 1)) (hblk : ∀ b ∈ blocks, BlockOk b)
    (i j : Nat) (b : List Int) (R : List (List Int)) (t : T)
    (hdone : ∃ done, blocks = done ++ b :: R)
    (h : DcRefineAt D d reserve al rest tail (b :: R) t) :
    Visit k mw lev (setLevel lev 0 0 al) (DcRefineAt D d reserve al rest tail) i j (b :: R) t := by
  obtain ⟨q, ha, hrep⟩ := h
  obtain ⟨todo, hd, -⟩ := ha.dec
  have hb : BlockOk b := by
    obtain ⟨done, e⟩ := hdone
    exact hblk b (by rw [e]; simp)
  rw [dcRefineBits, List.map_cons, List.cons_append] at hrep
  obtain ⟨io, e1, hrep', hk⟩ := dcRefine_block (ha.low.trans hal) hrep
  have hg := coded_get_dc (lev := lev) hb.len
  rw [hlev] at hg
  have hp := progBlock_dcRefine (mw := mw) (i := i) (j := j) SD hd hs hh htab hg e1
  rw [coded_set_dc hb.len rfl] at hp
  obtain ⟨t2, hc, ha', hio⟩ := ha.count (R' := R) (q' := q) SD (Nat.le_refl _) hr hd hk io.bs.eobRun
  refine Visit.block hp hc ⟨q, ha', ?_⟩
  rw [hio]
  exact hrep'

/-- First scan of a band: `Z` are the blocks that the end of band run covers. -/
def AcFirstAt (D : I32 → Nat → Decoder) (d : Decoder) (reserve ss se al : Nat) (counts values : List Nat)
    (word : Nat → List Bool) (rest : List Bool) (tail : Option (UInt8 × List UInt8))
    (R : List (List Int)) (t : T) : Prop :=
  ∃ q Z R' toks, R = Z ++ R' ∧ At D d reserve q R t ∧ t.io.bs.eobRun = Z.length ∧
    (∀ z ∈ Z, ∀ x ∈ band ss se al z, x = 0) ∧ AcFirst (R'.map (band ss se al)) toks ∧
    (∀ p ∈ toks, Coded counts values word p) ∧ Rep t.io (symbolBits word toks ++ rest) tail

theorem approxBlock_zero (h1 : 1 ≤ ss) (hlev : ∀ k, ss ≤ k → k ≤ se → lev k = none)
    {b : List Int} (hz : ∀ x ∈ band ss se al b, x = 0) :
    approxBlock lev b = approxBlock (setLevel lev ss se al) b := by
  refine List.ext_getElem? fun k => ?_
  unfold approxBlock
  rw [List.getElem?_mapIdx, List.getElem?_mapIdx]
  rcases hx : b[k]? with _ | x
  · rfl
  · simp only [Option.map_some]
    by_cases hk : ss ≤ k ∧ k ≤ se
    · rw [setLevel_in hk.1 hk.2, hlev k hk.1 hk.2]
      have : pointAc al x ∈ band ss se al b := by
        unfold band
        refine List.mem_map_of_mem (List.mem_of_getElem? (i := k - ss) ?_)
        rw [List.getElem?_drop, List.getElem?_take_of_lt (by omega), show ss + (k - ss) = k by omega, hx]
      simp only [approx, if_neg (show k ≠ 0 by omega), hz _ this, Int.zero_mul]
    · rw [setLevel_out (by omega)]

theorem symbolBits_append (word : Nat → List Bool) (a b : List (Nat × List Bool)) :
    symbolBits word (a ++ b) = symbolBits word a ++ symbolBits word b := by
  simp [symbolBits]

theorem acFirst_visit (SD : ScanDec D d k c) (hr : 1 ≤ reserve) (hs : d.specStart = ss) (he : d.specEnd = se)
    (hh : d.succHigh = 0) (hal : d.succLow = al) (h1 : 1 ≤ ss) (hss : ss ≤ se) (hse : se < 64)
    (hlev : ∀ k, ss ≤ k → k ≤ se → lev k = none)
    (htab : d.acTables[c.acHuffTable]? = some (some tab))
    (ht : Accepted counts values false true tab) (hblk : ∀ b ∈ blocks, BlockOk b)
    (i j : Nat) (b : List Int) (R : List (List Int)) (t : T) (hdone : ∃ done, blocks = done ++ b :: R)
    (h : AcFirstAt D d reserve ss se al counts values word rest tail (b :: R) t) :
    Visit k mw lev (setLevel lev ss se al) (AcFirstAt D d reserve ss se al counts values word rest tail)
      i j (b :: R) t := by
  obtain ⟨q, Z, R', toks, hR, ha, hrun, hZ, hac, hc, hrep⟩ := h
  obtain ⟨todo, hd, -⟩ := ha.dec
  obtain ⟨done, hdone⟩ := hdone
  have hs0 : d.specStart ≠ 0 := by omega
  have hb : BlockOk b := hblk b (by rw [hdone]; simp)
  rcases Z with _ | ⟨z, Z⟩
  · rw [List.nil_append] at hR
    subst hR
    rw [List.map_cons] at hac
    -- a block that is decoded, with or without a run
    have key : ∀ (fin : Option Nat) (Z R' : List (List Int)) (toks' : List (Nat × List Bool)),
        (∀ n ∈ fin, 1 ≤ n ∧ n < 2 ^ 15) → (fin.isSome ↔ endsZero (band ss se al b)) →
        toks = (coefSymbols 0 (band ss se al b) ++ (fin.map eobSymbol).toList) ++ toks' →
        R = Z ++ R' → (fin = none → Z = []) → (∀ n ∈ fin, n = Z.length + 1) →
        (∀ z ∈ Z, ∀ x ∈ band ss se al z, x = 0) → AcFirst (R'.map (band ss se al)) toks' →
        Visit k mw lev (setLevel lev ss se al)
          (AcFirstAt D d reserve ss se al counts values word rest tail) i j (b :: R) t := by
      intro fin Z R' toks' hfin hend htoks hRR hnone hlen hZ hac'
      rw [htoks] at hc hrep
      rw [symbolBits_append, List.append_assoc] at hrep
      obtain ⟨io, e1, hrep', hk⟩ := acFirst_block ht hb h1 hss hse hlev (ha.low.trans hal)
        (ha.start.trans hs) (ha.stop.trans he) hfin hend
        (fun p hp => hc p (List.mem_append_left _ hp)) hrep
      have hrl : runLeft fin io = { io with bs := { io.bs with eobRun := Z.length } } := by
        rcases fin with _ | n
        · have := hnone rfl
          subst this
          have : io.bs.eobRun = 0 := hk.eob.trans hrun
          rw [runLeft, List.length_nil, ← this]
        · have := hlen n rfl
          subst this
          rfl
      rw [hrl] at e1
      have hp := progBlock_ac (mw := mw) (i := i) (j := j) SD hd hs0 htab (Or.inl ⟨hh, hrun, e1⟩)
      obtain ⟨t2, hc2, ha', hio⟩ := ha.count (R' := R) (q' := q) SD (Nat.le_refl _) hr hd hk Z.length
      refine Visit.block hp hc2 ⟨q, Z, R', toks', hRR, ha', by rw [hio], hZ, hac',
        fun p hp => hc p (List.mem_append_right _ hp), ?_⟩
      rw [hio]
      exact hrep'.eob _
    obtain ⟨bands, hbands⟩ : ∃ bands, R.map (band ss se al) = bands := ⟨_, rfl⟩
    rw [hbands] at hac
    cases hac with
    | full hend hac' =>
      rename_i toks'
      subst hbands
      exact key none [] R toks' (by simp) (by simpa using hend) (by simp) rfl (fun _ => rfl) (by simp)
        (by simp) hac'
    | run hend hzs hlen hac' =>
      rename_i zs rest' toks'
      obtain ⟨Z, R', rfl, hz', hr'⟩ := List.map_eq_append_iff.1 hbands
      subst hz' hr'
      rw [List.length_map] at hlen hc hrep key
      refine key (some (Z.length + 1)) Z R' toks' (by simp; omega) (by simpa using hend) (by simp) rfl
        (by simp) (by simp) (fun z hz => hzs _ (List.mem_map_of_mem hz)) hac'
  · rw [List.cons_append] at hR
    injection hR with hz hR
    subst hz hR
    have hp := progBlock_skip (mw := mw) (i := i) (j := j) (block := coded (approxBlock lev b))
      SD hd hs0 htab hh hrun
    obtain ⟨t2, hc2, ha', hio⟩ := ha.count (R' := R') (q' := q) SD (by simp) hr hd (Kept.refl _) 0
    refine Visit.skip (zs := Z) hp hc2 (fun x hx => ?_) ⟨q, [], R', toks, rfl, ha', by rw [hio]; rfl,
      by simp, hac, hc, ?_⟩
    · rw [approxBlock_zero (lev := lev) h1 hlev (hZ x hx)]
    · rw [hio]
      exact hrep.eob _

/-- Refinement of a band. -/
def AcRefineAt (D : I32 → Nat → Decoder) (d : Decoder) (reserve ss se al : Nat) (counts values : List Nat)
    (word : Nat → List Bool) (rest : List Bool) (tail : Option (UInt8 × List UInt8))
    (R : List (List Int)) (t : T) : Prop :=
  ∃ q Z R' toks, R = Z ++ R' ∧ At D d reserve q R t ∧ t.io.bs.eobRun = Z.length ∧
    (∀ z ∈ Z, ∀ x ∈ band ss se al z, x.natAbs ≠ 1) ∧ AcRefine (R'.map (band ss se al)) toks ∧
    (∀ p ∈ toks, (word p.1, p.1) ∈ codeBook counts values) ∧
    Rep t.io (Z.flatMap (fun z => corrections (band ss se al z)) ++ (symbolBits word toks ++ rest)) tail

theorem acRefine_visit (SD : ScanDec D d k c) (hr : 1 ≤ reserve) (hs : d.specStart = ss) (he : d.specEnd = se)
    (hh : d.succHigh ≠ 0) (hal : d.succLow = al) (h1 : 1 ≤ ss) (hss : ss ≤ se) (hse : se < 64)
    (hal15 : al < 15) (hlev : ∀ k, ss ≤ k → k ≤ se → lev k = some (al + 1))
    (htab : d.acTables[c.acHuffTable]? = some (some tab))
    (ht : Accepted counts values false prog tab) (hblk : ∀ b ∈ blocks, BlockOk b)
    (i j : Nat) (b : List Int) (R : List (List Int)) (t : T) (hdone : ∃ done, blocks = done ++ b :: R)
    (h : AcRefineAt D d reserve ss se al counts values word rest tail (b :: R) t) :
    Visit k mw lev (setLevel lev ss se al) (AcRefineAt D d reserve ss se al counts values word rest tail)
      i j (b :: R) t := by
  obtain ⟨q, Z, R', toks, hR, ha, hrun, hZ, hac, hc, hrep⟩ := h
  obtain ⟨todo, hd, -⟩ := ha.dec
  obtain ⟨done, hdone⟩ := hdone
  have hs0 : d.specStart ≠ 0 := by omega
  have hb : BlockOk b := hblk b (by rw [hdone]; simp)
  rcases Z with _ | ⟨z, Z⟩
  · rw [List.nil_append] at hR
    subst hR
    rw [List.map_cons] at hac
    rw [List.flatMap_nil, List.nil_append] at hrep
    have key : ∀ (fin : Option Nat) (corr : List Bool) (Z R' : List (List Int))
        (toks' : List (Nat × List Bool)),
        (∀ n ∈ fin, 1 ≤ n ∧ n < 2 ^ 15) →
        (refineSymbols 0 [] (band ss se al b)).2 = (fin.map fun _ => corr) →
        (fin = none → corr = []) →
        (∀ p ∈ (refineSymbols 0 [] (band ss se al b)).1 ++ (fin.map eobSymbol).toList,
          (word p.1, p.1) ∈ codeBook counts values) →
        symbolBits word toks = symbolBits word ((refineSymbols 0 [] (band ss se al b)).1 ++
          (fin.map eobSymbol).toList) ++ (corr ++
            (Z.flatMap (fun z => corrections (band ss se al z)) ++ symbolBits word toks')) →
        R = Z ++ R' → (fin = none → Z = []) → (∀ n ∈ fin, n = Z.length + 1) →
        (∀ z ∈ Z, ∀ x ∈ band ss se al z, x.natAbs ≠ 1) → AcRefine (R'.map (band ss se al)) toks' →
        (∀ p ∈ toks', (word p.1, p.1) ∈ codeBook counts values) →
        Visit k mw lev (setLevel lev ss se al)
          (AcRefineAt D d reserve ss se al counts values word rest tail) i j (b :: R) t := by
      intro fin corr Z R' toks' hfin hsym hcorr hcode htoks hRR hnone hlen hZ hac' hc'
      rw [htoks, List.append_assoc, List.append_assoc, List.append_assoc] at hrep
      obtain ⟨io, e1, hrep', hk⟩ := acRefine_block ht hb h1 hss hse hal15 hlev (ha.low.trans hal)
        (ha.start.trans hs) (ha.stop.trans he) hrun hfin hsym hcorr hcode hrep
      have hrl : runLeft fin io = { io with bs := { io.bs with eobRun := Z.length } } := by
        rcases fin with _ | n
        · have := hnone rfl
          subst this
          have : io.bs.eobRun = 0 := hk.eob.trans hrun
          rw [runLeft, List.length_nil, ← this]
        · have := hlen n rfl
          subst this
          rfl
      rw [hrl] at e1
      have hp := progBlock_ac (mw := mw) (i := i) (j := j) SD hd hs0 htab (Or.inr ⟨hh, e1⟩)
      obtain ⟨t2, hc2, ha', hio⟩ := ha.count (R' := R) (q' := q) SD (Nat.le_refl _) hr hd hk Z.length
      refine Visit.block hp hc2 ⟨q, Z, R', toks', hRR, ha', by rw [hio], hZ, hac', hc', ?_⟩
      rw [hio]
      exact hrep'.eob _
    obtain ⟨bands, hbands⟩ : ∃ bands, R.map (band ss se al) = bands := ⟨_, rfl⟩
    rw [hbands] at hac
    cases hac with
    | full hend hac' =>
      rename_i toks'
      subst hbands
      refine key none [] [] R toks' (by simp) (by simpa using hend) (by simp)
        (fun p hp => hc p (by simp at hp ⊢; exact Or.inl hp)) (by simp [symbolBits]) rfl (fun _ => rfl)
        (by simp) (by simp) hac' (fun p hp => hc p (by simp [hp]))
    | run hend hzs hlen hac' =>
      rename_i zs rest' toks' corr
      obtain ⟨Z, R', rfl, hz', hr'⟩ := List.map_eq_append_iff.1 hbands
      subst hz' hr'
      rw [List.length_map] at hlen hc hrep key
      refine key (some (Z.length + 1)) corr Z R' toks' (by simp; omega) (by simpa using hend) (by simp)
        (fun p hp => ?_) (by simp [symbolBits, List.flatMap_map]) rfl
        (by simp) (by simp) (fun z hz => hzs _ (List.mem_map_of_mem hz)) hac'
        (fun p hp => hc p (by simp [hp]))
      rw [List.mem_append] at hp
      rcases hp with hp | hp
      · exact hc p (List.mem_append_left _ hp)
      · simp only [Option.map_some, Option.toList_some, List.mem_singleton] at hp
        subst hp
        have := hc _ (List.mem_append_right _ List.mem_cons_self)
        exact this
  · rw [List.cons_append] at hR
    injection hR with hz hR
    subst hz hR
    rw [List.flatMap_cons, List.append_assoc] at hrep
    obtain ⟨io, e1, hrep', hk⟩ := acRefine_inside (t := tab) hb h1 hss hse hlev (ha.low.trans hal)
        (ha.start.trans hs) (ha.stop.trans he) hrun (hZ b List.mem_cons_self) hrep
    have hp := progBlock_ac (mw := mw) (i := i) (j := j) SD hd hs0 htab (Or.inr ⟨hh, e1⟩)
    obtain ⟨t2, hc2, ha', hio⟩ := ha.count (R' := Z ++ R') (q' := q) SD (Nat.le_refl _) hr hd hk Z.length
    refine Visit.block hp hc2 ⟨q, Z, R', toks, rfl, ha', by rw [hio],
      fun z hz => hZ z (List.mem_cons_of_mem _ hz), hac, hc, ?_⟩
    rw [hio]
    exact hrep'.eob _

end

end Zune
