import Verif.Lemmas.ProgFile
import Verif.Lemmas.ColourFile
/-! Scans of a progressive image that contain several components. -/

namespace Zune
open Spec

namespace Spec

/-- A block: component, row and column. -/
abbrev Cell := Nat × Nat × Nat

/-- The blocks of component `i` in the MCU in row `y` and column `x`; `shape i` are the rows and columns of
blocks that an MCU has of the component. -/
def compCells (shape : Nat → Nat × Nat) (y x i : Nat) : List Cell :=
  (List.range (shape i).1).flatMap fun a => (List.range (shape i).2).map fun b =>
    (i, y * (shape i).1 + a, x * (shape i).2 + b)

/-- The blocks of a scan with the components `comps`, in the order of the file (T.81 A.2.3). -/
def scanCells (shape : Nat → Nat × Nat) (comps : List Nat) (rows cols : Nat) : List Cell :=
  (List.range rows).flatMap fun y => (List.range cols).flatMap fun x =>
    comps.flatMap (compCells shape y x)

/-- The DC coefficient of a block. -/
def cellDc (B : Nat → Nat → Nat → List Int) (c : Cell) : Int := dcOfBlock (B c.1 c.2.1 c.2.2)

/-- The differences of the transformed DC coefficients, each with its component. -/
def cellDiffs (B : Nat → Nat → Nat → List Int) (al : Nat) : (Nat → Int) → List Cell → List (Nat × Int)
  | _, [] => []
  | p, c :: cs => (c.1, pointDc al (cellDc B c) - p c.1) ::
      cellDiffs B al (putPred p c.1 (pointDc al (cellDc B c))) cs

/-- The bits of a first DC scan. -/
def cellBits (word : Nat → Nat → List Bool) (diffs : List (Nat × Int)) : List Bool :=
  diffs.flatMap fun x => dcCode (word x.1) x.2

/-- The bits of a refinement of DC coefficients. -/
def cellRefine (B : Nat → Nat → Nat → List Int) (al : Nat) (cells : List Cell) : List Bool :=
  cells.map fun c => decide (pointDc al (cellDc B c) % 2 = 1)

/-- The data of a scan with several components (T.81 G.1.2.1), with parameters `ah` and `al`: only DC
coefficients. `tab i` is the DC table of component `i`. As for one component, a code word with the bits
after it has up to 16 bits. -/
inductive InterData (tab : Nat → Option HTable) (lev : Nat → Nat → Option Nat) (comps : List Nat)
    (B : Nat → Nat → Nat → List Int) (word : Nat → Nat → List Bool) (cells : List Cell) :
    Nat → Nat → List Bool → Prop
  | first {al} : (∀ i ∈ comps, ∃ t, tab i = some t) →
      (∀ x ∈ cellDiffs B al (fun _ => 0) cells, ∀ t, tab x.1 = some t →
        (word x.1 (category x.2), category x.2) ∈ t.book ∧ (dcCode (word x.1) x.2).length ≤ 16) →
      InterData tab lev comps B word cells 0 al (cellBits word (cellDiffs B al (fun _ => 0) cells))
  | refine {al} : (∀ i ∈ comps, (∃ t, tab i = some t) ∧ lev i 0 = some (al + 1)) →
      InterData tab lev comps B word cells (al + 1) al (cellRefine B al cells)

end Spec

theorem foldM_list {σ α β : Type} {f : β → α → M σ β} (I : List α → β → σ → Prop)
    (hf : ∀ a l b s, I (a :: l) b s → ∃ b' s', f b a s = (.ok b', s') ∧ I l b' s') :
    ∀ l b s, I l b s → ∃ b' s', M.foldM l b f s = (.ok b', s') ∧ I [] b' s'
  | [], b, s, h => ⟨b, s, rfl, h⟩
  | a :: l, b, s, h => by
    obtain ⟨b1, s1, e1, h1⟩ := hf a l b s h
    obtain ⟨b2, s2, e2, h2⟩ := foldM_list I hf l b1 s1 h1
    refine ⟨b2, s2, ?_, h2⟩
    unfold M.foldM
    show (f b a >>= fun b' => M.foldM l b' f) s = _
    rw [M.bind_ok e1, e2]

theorem blockAt_set {buf : List I16} {p : Nat} (hp : 64 * p < buf.length) (v : I16) (j : Nat) :
    blockAt (buf.set (64 * p) v) j = if j = p then (blockAt buf j).set 0 v else blockAt buf j := by
  unfold blockAt
  refine List.ext_getElem? fun x => ?_
  by_cases hj : j = p
  · subst hj
    rw [if_pos rfl]
    by_cases hx : x < 64
    · rw [List.getElem?_take_of_lt hx, List.getElem?_drop]
      by_cases h0 : x = 0
      · subst h0
        rw [Nat.add_zero, List.getElem?_set_self hp, List.getElem?_set_self (by simp; omega)]
      · rw [List.getElem?_set_ne (by omega), List.getElem?_set_ne (by omega),
          List.getElem?_take_of_lt hx, List.getElem?_drop]
    · rw [List.getElem?_eq_none (by simp; omega), List.getElem?_eq_none (by simp; omega)]
  · rw [if_neg hj]
    by_cases hx : x < 64
    · rw [List.getElem?_take_of_lt hx, List.getElem?_take_of_lt hx, List.getElem?_drop,
        List.getElem?_drop, List.getElem?_set_ne (by omega)]
    · rw [List.getElem?_eq_none (by simp; omega), List.getElem?_eq_none (by simp; omega)]

/-! ### The buffers -/

section
variable {own : Nat → Nat → Nat → Prop} {S L : Nat → Nat} {lev : Nat → Nat → Option Nat}
  {comps : List Nat} {B : Nat → Nat → Nat → List Int} {al : Nat}

/-- What the buffers of `n` components hold while the cells `R` of a DC scan are still to come; only the
blocks of `own` are known. -/
def InterHolds (own : Nat → Nat → Nat → Prop) (S L : Nat → Nat) (lev : Nat → Nat → Option Nat)
    (comps : List Nat) (B : Nat → Nat → Nat → List Int) (al n : Nat) (R : List Cell)
    (bufs : List (List I16)) : Prop :=
  bufs.length = n ∧ ∀ i, i < n → ∃ buf, bufs[i]? = some buf ∧ buf.length = 64 * L i ∧
    ∀ r k, own i r k → (i ∈ comps ∧ (i, r, k) ∉ R →
        blockAt buf (r * S i + k) = coded (approxBlock (setLevel (lev i) 0 0 al) (B i r k))) ∧
      (¬ (i ∈ comps ∧ (i, r, k) ∉ R) → blockAt buf (r * S i + k) = coded (approxBlock (lev i) (B i r k)))

theorem InterHolds.step {lev : Nat → Nat → Option Nat} {n i r k : Nat} {R : List Cell}
    {bufs : List (List I16)}
    (h : InterHolds own S L lev comps B al n ((i, r, k) :: R) bufs) (hi : i ∈ comps) (hn : i < n)
    (hnot : (i, r, k) ∉ R) (hk : k < S i) (hL : r * S i + k < L i)
    (hown : ∀ i r k, own i r k → k < S i ∧ (B i r k).length = 64) :
    ∃ buf x, bufs[i]? = some buf ∧ buf[64 * (r * S i + k)]? = some x ∧
      (own i r k → x = BitVec.ofInt 16 (approx (lev i 0) 0 (cellDc B (i, r, k)))) ∧
      ∀ v : I16, (own i r k → v = BitVec.ofInt 16 (pointDc al (cellDc B (i, r, k)) * 2 ^ al)) →
        InterHolds own S L lev comps B al n R (bufs.set i (buf.set (64 * (r * S i + k)) v)) := by
  obtain ⟨hlen, hall⟩ := h
  obtain ⟨buf, hb, hl, hval⟩ := hall i hn
  have hpos : 64 * (r * S i + k) < buf.length := by omega
  refine ⟨buf, buf[64 * (r * S i + k)], hb, List.getElem?_eq_getElem hpos, ?_, ?_⟩
  · intro ho
    have hv := (hval r k ho).2 (by simp)
    have h0 := congrArg (fun l : List I16 => l[0]?) hv
    rw [coded_get_dc (hown _ _ _ ho).2] at h0
    unfold blockAt at h0
    rw [List.getElem?_take_of_lt (by decide), List.getElem?_drop, Nat.add_zero,
      List.getElem?_eq_getElem hpos] at h0
    exact Option.some.inj h0
  · intro v hv
    refine ⟨by rw [List.length_set]; exact hlen, fun j hj => ?_⟩
    by_cases hji : j = i
    · subst hji
      refine ⟨_, List.getElem?_set_self (by omega), by rw [List.length_set]; exact hl, fun r' k' ho => ?_⟩
      by_cases hrk : r' = r ∧ k' = k
      · obtain ⟨rfl, rfl⟩ := hrk
        refine ⟨fun _ => ?_, fun hx => absurd ⟨hi, hnot⟩ hx⟩
        rw [blockAt_set hpos, if_pos rfl, (hval _ _ ho).2 (by simp)]
        exact coded_set_dc (hown _ _ _ ho).2 (hv ho)
      · have hne : r' * S j + k' ≠ r * S j + k := by
          intro e
          have hk' := (hown _ _ _ ho).1
          have key : ∀ a b, b < S j → (a * S j + b) / S j = a ∧ (a * S j + b) % S j = b := by
            intro a b hb
            rw [Nat.mul_comm a, Nat.mul_add_div (by omega), Nat.div_eq_of_lt hb, Nat.mul_add_mod,
              Nat.mod_eq_of_lt hb]
            exact ⟨Nat.add_zero _, rfl⟩
          have k1 := key r' k' hk'
          have k2 := key r k hk
          rw [e] at k1
          exact hrk ⟨by rw [← k1.1, k2.1], by rw [← k1.2, k2.2]⟩
        have hmem : ((j, r', k') : Cell) ∉ ((j, r, k) : Cell) :: R ↔ (j, r', k') ∉ R := by
          have : ((j, r', k') : Cell) ≠ (j, r, k) := by
            intro e
            injection e with _ e
            injection e with e1 e2
            exact hrk ⟨e1, e2⟩
          simp [this]
        rw [blockAt_set hpos, if_neg hne, ← hmem]
        exact hval r' k' ho
    · obtain ⟨buf', hb', hl', hval'⟩ := hall j hj
      refine ⟨buf', by rw [List.getElem?_set_ne (fun e => hji e.symm)]; exact hb', hl', fun r' k' ho => ?_⟩
      have hmem : ((j, r', k') : Cell) ∉ ((i, r, k) : Cell) :: R ↔ (j, r', k') ∉ R := by
        have : ((j, r', k') : Cell) ≠ (i, r, k) := by
          intro e
          injection e with e _
          exact hji e
        simp [this]
      rw [← hmem]
      exact hval' r' k' ho

end

/-! ### The loops -/

section
variable {own : Nat → Nat → Nat → Prop} {S L : Nat → Nat} {lev : Nat → Nat → Option Nat}
  {comps : List Nat} {B : Nat → Nat → Nat → List Int} {al : Nat}
  {d : Decoder} {cs : List Component} {tab : Nat → HuffmanTable} {Q : List Cell → Nat → T → Prop}

/-- How the states between the blocks follow each other. -/
structure InterSteps (own : Nat → Nat → Nat → Prop) (lev : Nat → Nat → Option Nat) (comps : List Nat)
    (B : Nat → Nat → Nat → List Int) (al : Nat) (d : Decoder) (cs : List Component)
    (tab : Nat → HuffmanTable) (Q : List Cell → Nat → T → Prop) : Prop where
  dec : ∀ R n t, Q R n t → ∃ p, t.dec = multiDec d cs p n
  count : ∀ R n m t, Q R n t → Q R m { t with dec := { t.dec with todo := m } }
  step : ∀ i r k R n t x, i ∈ comps → Q ((i, r, k) :: R) n t →
    (own i r k → x = BitVec.ofInt 16 (approx (lev i 0) 0 (cellDc B (i, r, k)))) →
    ∃ v t', progDc i x (tab i) t = (.ok v, t') ∧ Q R n t' ∧
      (own i r k → v = BitVec.ofInt 16 (pointDc al (cellDc B (i, r, k)) * 2 ^ al))

/-- Where the blocks are kept. -/
structure InterShape (own : Nat → Nat → Nat → Prop) (S L : Nat → Nat) (comps : List Nat)
    (B : Nat → Nat → Nat → List Int) (cs : List Component) (Y X : Nat) : Prop where
  own : ∀ i r k, own i r k → k < S i ∧ (B i r k).length = 64
  comp : ∀ i ∈ comps, ∃ c, cs[i]? = some c ∧ c.widthStride = 8 * S i ∧ 0 < c.verticalSample ∧
    0 < c.horizontalSample ∧ X * c.horizontalSample ≤ S i ∧ Y * c.verticalSample * S i ≤ L i
  nodup : comps.Nodup

theorem interSample_step (I : InterSteps own lev comps B al d cs tab Q) {Y X : Nat}
    (G : InterShape own S L comps B cs Y X) {i y x : Nat} {c : Component}
    (hi : i ∈ comps) (hc : cs[i]? = some c) (hy : y < Y) (hx : x < X) {vh : Nat × Nat}
    (h1 : vh.1 < c.verticalSample) (h2 : vh.2 < c.horizontalSample) {R : List Cell} {n : Nat} {t : T}
    {bufs : List (List I16)} {q : I32}
    (hQ : Q ((i, y * c.verticalSample + vh.1, x * c.horizontalSample + vh.2) :: R) n t)
    (hH : InterHolds own S L lev comps B al cs.length
      ((i, y * c.verticalSample + vh.1, x * c.horizontalSample + vh.2) :: R) bufs)
    (hnot : (i, y * c.verticalSample + vh.1, x * c.horizontalSample + vh.2) ∉ R) :
    ∃ bufs' t', interSample y x i { c with dcPred := q } (tab i) bufs vh t = (.ok bufs', t') ∧ Q R n t' ∧
      InterHolds own S L lev comps B al cs.length R bufs' := by
  obtain ⟨c', hc', g1, g2, g3, g4, g5⟩ := G.comp i hi
  rw [hc] at hc'
  cases hc'
  obtain ⟨r, hr⟩ : ∃ r, y * c.verticalSample + vh.1 = r := ⟨_, rfl⟩
  obtain ⟨k, hk⟩ : ∃ k, x * c.horizontalSample + vh.2 = k := ⟨_, rfl⟩
  rw [hr, hk] at hQ hH hnot
  have hkS : k < S i := by
    have : (x + 1) * c.horizontalSample ≤ X * c.horizontalSample := Nat.mul_le_mul_right _ hx
    rw [Nat.add_one_mul] at this
    omega
  have hrL : r * S i + k < L i := by
    have h3 : (y + 1) * c.verticalSample ≤ Y * c.verticalSample := Nat.mul_le_mul_right _ hy
    rw [Nat.add_one_mul] at h3
    have h4 : (r + 1) * S i ≤ Y * c.verticalSample * S i := Nat.mul_le_mul_right _ (by omega)
    rw [Nat.add_one_mul] at h4
    omega
  have hin : i < cs.length := (List.getElem?_eq_some_iff.1 hc).1
  obtain ⟨buf, a, hb, ha, hav, hnext⟩ := hH.step hi hin hnot hkS hrL G.own
  obtain ⟨v, t', e1, hQ', hv⟩ := I.step i r k R n t a hi hQ hav
  refine ⟨_, t', ?_, hQ', hnext v hv⟩
  have hpos : interPos { c with dcPred := q } y x vh = 64 * (r * S i + k) := by
    unfold interPos
    show 64 * (x * c.horizontalSample + vh.2 + (y * c.verticalSample + vh.1) * c.widthStride / 8) = _
    rw [hr, hk, g1, show r * (8 * S i) = 8 * (r * S i) by ring, Nat.mul_div_cancel_left _ (by decide)]
    omega
  unfold interSample
  have x1 : M.idx bufs i t = (.ok buf, t) := by unfold M.idx; rw [hb]
  have x2 : M.idx buf (64 * (r * S i + k)) t = (.ok a, t) := by unfold M.idx; rw [ha]
  rw [hpos, M.bind_ok x1, M.bind_ok x2, M.bind_ok e1]
  rfl

theorem compCells_map {shape : Nat → Nat × Nat} {y x i : Nat} {c : Component}
    (hs : shape i = (c.verticalSample, c.horizontalSample)) : compCells shape y x i =
      (samplePairs c.verticalSample c.horizontalSample).map fun vh =>
        (i, y * c.verticalSample + vh.1, x * c.horizontalSample + vh.2) := by
  unfold compCells samplePairs
  rw [hs, List.map_flatMap]
  simp [List.map_map, Function.comp_def]

theorem interComponent_step (I : InterSteps own lev comps B al d cs tab Q) {Y X : Nat}
    (G : InterShape own S L comps B cs Y X) {shape : Nat → Nat × Nat}
    (hshape : ∀ i c, cs[i]? = some c → shape i = (c.verticalSample, c.horizontalSample))
    (htab : ∀ i ∈ comps, ∀ c, cs[i]? = some c → d.dcTables[c.dcHuffTable]? = some (some (tab i)))
    {i k y x : Nat} (hi : i ∈ comps) (hz : d.zOrder[k]? = some i) (hy : y < Y) (hx : x < X)
    {R : List Cell} {n : Nat} {t : T} {bufs : List (List I16)} (hn : 2 ≤ n)
    (hQ : Q (compCells shape y x i ++ R) n t)
    (hH : InterHolds own S L lev comps B al cs.length (compCells shape y x i ++ R) bufs)
    (hnd : (compCells shape y x i ++ R).Nodup) :
    ∃ bufs' t', interComponent y x bufs k t = (.ok bufs', t') ∧ Q R (n - 1) t' ∧
      InterHolds own S L lev comps B al cs.length R bufs' := by
  obtain ⟨c, hc, -, -, -, -, -⟩ := G.comp i hi
  rw [compCells_map (hshape i c hc)] at hQ hH hnd
  obtain ⟨p, hd⟩ := I.dec _ _ _ hQ
  obtain ⟨bufs', t', e1, hQ', hH', -, -⟩ := foldM_list
    (f := interSample y x i { c with dcPred := BitVec.ofInt 32 (p i) } (tab i))
    (fun l bufs t => Q (l.map (fun vh => (i, y * c.verticalSample + vh.1, x * c.horizontalSample + vh.2)) ++ R) n t ∧
      InterHolds own S L lev comps B al cs.length
        (l.map (fun vh => (i, y * c.verticalSample + vh.1, x * c.horizontalSample + vh.2)) ++ R) bufs ∧
      (l.map (fun vh => ((i, y * c.verticalSample + vh.1, x * c.horizontalSample + vh.2) : Cell)) ++ R).Nodup ∧
      ∀ vh ∈ l, vh.1 < c.verticalSample ∧ vh.2 < c.horizontalSample)
    (by
      rintro vh l b s ⟨a1, a2, a3, a4⟩
      rw [List.map_cons, List.cons_append] at a1 a2 a3
      obtain ⟨b1, b2⟩ := a4 vh List.mem_cons_self
      rw [List.nodup_cons] at a3
      obtain ⟨b', s', e, q1, q2⟩ := interSample_step I G hi hc hy hx b1 b2 (q := BitVec.ofInt 32 (p i))
        a1 a2 a3.1
      exact ⟨b', s', e, q1, q2, a3.2, fun vh h => a4 vh (List.mem_cons_of_mem _ h)⟩)
    _ bufs t ⟨hQ, hH, hnd, fun vh h => mem_samplePairs.1 h⟩
  rw [List.map_nil, List.nil_append] at hQ' hH'
  obtain ⟨p', hd'⟩ := I.dec _ _ _ hQ'
  have htodo : t'.dec.todo = n := by rw [hd']; rfl
  have hcd := countDown_more (t := t') (by omega)
  rw [htodo] at hcd
  refine ⟨bufs', _, ?_, I.count _ _ (n - 1) _ hQ', hH'⟩
  unfold interComponent
  have x1 : M.idx t.dec.zOrder k t = (.ok i, t) := by
    unfold M.idx
    rw [show t.dec.zOrder[k]? = some i by rw [hd]; exact hz]
  have hlen : t.dec.components.length = cs.length := by rw [hd]; simp [multiDec]
  have x2 : M.idx t.dec.components i t = (.ok { c with dcPred := BitVec.ofInt 32 (p i) }, t) := by
    unfold M.idx
    rw [show t.dec.components[i]? = some { c with dcPred := BitVec.ofInt 32 (p i) } by
      rw [hd]; exact multiDec_comp hc]
  have x3 : progTable t.dec.dcTables ({ c with dcPred := BitVec.ofInt 32 (p i) } : Component).dcHuffTable t =
      (.ok (tab i), t) := by
    unfold progTable
    rw [show t.dec.dcTables[({ c with dcPred := BitVec.ofInt 32 (p i) } : Component).dcHuffTable]? =
      some (some (tab i)) by rw [hd]; exact htab i hi c hc]
  rw [M.bind_ok (M.get_apply _), M.bind_ok x1,
    if_neg (by rw [hlen]; have := (List.getElem?_eq_some_iff.1 hc).1; omega), M.bind_ok x2, M.bind_ok x3]
  dsimp only at e1 ⊢
  rw [M.bind_ok e1, M.bind_ok hcd]
  rfl

/-- All MCUs of a scan. -/
theorem inter_loop (I : InterSteps own lev comps B al d cs tab Q) {Y X : Nat}
    (G : InterShape own S L comps B cs Y X) {shape : Nat → Nat × Nat}
    (hshape : ∀ i c, cs[i]? = some c → shape i = (c.verticalSample, c.horizontalSample))
    (htab : ∀ i ∈ comps, ∀ c, cs[i]? = some c → d.dcTables[c.dcHuffTable]? = some (some (tab i)))
    (hz : ∀ k, k < comps.length → d.zOrder[k]? = comps[k]?)
    {n reserve : Nat} {t : T} {bufs : List (List I16)} (hr : 1 ≤ reserve)
    (hn : (scanCells shape comps Y X).length + reserve ≤ n)
    (hQ : Q (scanCells shape comps Y X) n t)
    (hH : InterHolds own S L lev comps B al cs.length (scanCells shape comps Y X) bufs) :
    ∃ bufs' t' n', M.foldM (samplePairs Y X) bufs (fun bufs (ij : Nat × Nat) =>
        M.foldM (List.range comps.length) bufs (interComponent ij.1 ij.2)) t = (.ok bufs', t') ∧
      Q [] n' t' ∧ reserve ≤ n' ∧ InterHolds own S L lev comps B al cs.length [] bufs' := by
  have hcells : scanCells shape comps Y X =
      (samplePairs Y X).flatMap fun ij => comps.flatMap (compCells shape ij.1 ij.2) := by
    unfold scanCells samplePairs
    rw [List.flatMap_assoc]
    congr 1
    funext y
    rw [List.flatMap_map]
  have hpos : ∀ i ∈ comps, ∀ y x, 1 ≤ (compCells shape y x i).length := by
    intro i hi y x
    obtain ⟨c, hc, -, g2, g3, -, -⟩ := G.comp i hi
    rw [compCells_map (hshape i c hc), List.length_map, length_samplePairs]
    exact Nat.mul_pos g2 g3
  have hnd : (scanCells shape comps Y X).Nodup := by
    rw [hcells, List.nodup_flatMap]
    have hdiv : ∀ a b v : Nat, b < v → (a * v + b) / v = a := by
      intro a b v hb
      rw [Nat.mul_comm a, Nat.mul_add_div (by omega), Nat.div_eq_of_lt hb]
      exact Nat.add_zero _
    have hmem : ∀ i ∈ comps, ∀ y x (z : Cell), z ∈ compCells shape y x i →
        ∃ c, cs[i]? = some c ∧ z.1 = i ∧ z.2.1 / c.verticalSample = y ∧ z.2.2 / c.horizontalSample = x := by
      intro i hi y x z hzm
      obtain ⟨c, hc, -, g2, g3, -, -⟩ := G.comp i hi
      rw [compCells_map (hshape i c hc)] at hzm
      obtain ⟨vh, hvh, rfl⟩ := List.mem_map.1 hzm
      obtain ⟨v1, v2⟩ := mem_samplePairs.1 hvh
      exact ⟨c, hc, rfl, hdiv _ _ _ v1, hdiv _ _ _ v2⟩
    refine ⟨fun ij _ => ?_, (samplePairs_nodup Y X).imp ?_⟩
    · rw [List.nodup_flatMap]
      refine ⟨fun i hi => ?_, G.nodup.imp_of_mem ?_⟩
      · obtain ⟨c, hc, -, -, -, -, -⟩ := G.comp i hi
        rw [compCells_map (hshape i c hc)]
        refine (samplePairs_nodup _ _).map fun a b hab => ?_
        injection hab with _ hab
        injection hab with h1 h2
        exact Prod.ext (by omega) (by omega)
      · intro a b ha hb hab z hza hzb
        obtain ⟨-, -, h1, -⟩ := hmem a ha _ _ z hza
        obtain ⟨-, -, h2, -⟩ := hmem b hb _ _ z hzb
        exact hab (h1.symm.trans h2)
    · intro a b hab z hza hzb
      obtain ⟨i, hi, hz1⟩ := List.mem_flatMap.1 hza
      obtain ⟨j, hj, hz2⟩ := List.mem_flatMap.1 hzb
      obtain ⟨c, hc, h1, h2, h3⟩ := hmem i hi _ _ z hz1
      obtain ⟨c', hc', k1, k2, k3⟩ := hmem j hj _ _ z hz2
      have : i = j := h1.symm.trans k1
      subst this
      rw [hc] at hc'
      cases hc'
      exact hab (Prod.ext (h2.symm.trans k2) (h3.symm.trans k3))
  -- an MCU
  have mcu : ∀ (y x : Nat) (_ : y < Y) (_ : x < X) (R : List Cell) (n : Nat) (bufs : List (List I16)) (t : T),
      (comps.flatMap (compCells shape y x) ++ R).length + reserve ≤ n →
      Q (comps.flatMap (compCells shape y x) ++ R) n t →
      InterHolds own S L lev comps B al cs.length (comps.flatMap (compCells shape y x) ++ R) bufs →
      (comps.flatMap (compCells shape y x) ++ R).Nodup →
      ∃ bufs' t' n', M.foldM (List.range comps.length) bufs (interComponent y x) t = (.ok bufs', t') ∧
        R.length + reserve ≤ n' ∧ Q R n' t' ∧ InterHolds own S L lev comps B al cs.length R bufs' := by
    intro y x hy hx R n bufs t hn hQ hH hnd
    have hrange : (List.range comps.length).map (fun k => comps.getD k 0) = comps := by
      refine List.ext_getElem? fun k => ?_
      rw [List.getElem?_map]
      by_cases hk : k < comps.length
      · rw [List.getElem?_range hk, List.getElem?_eq_getElem hk, Option.map_some, List.getD_eq_getElem _ _ hk]
      · rw [List.getElem?_eq_none (by simpa using hk), List.getElem?_eq_none (by omega)]
        rfl
    obtain ⟨b', t', e, ⟨n', q1, q2, q3, -⟩, -⟩ := foldM_list (f := interComponent y x)
      (fun l bufs t => (∃ n, ((l.map fun k => comps.getD k 0).flatMap (compCells shape y x) ++ R).length +
          reserve ≤ n ∧
        Q ((l.map fun k => comps.getD k 0).flatMap (compCells shape y x) ++ R) n t ∧
        InterHolds own S L lev comps B al cs.length
          ((l.map fun k => comps.getD k 0).flatMap (compCells shape y x) ++ R) bufs ∧
        ((l.map fun k => comps.getD k 0).flatMap (compCells shape y x) ++ R).Nodup) ∧
        ∀ k ∈ l, k < comps.length)
      (by
        rintro k l b s ⟨⟨n, a1, a2, a3, a4⟩, a5⟩
        have hk := a5 k List.mem_cons_self
        have hi : comps.getD k 0 ∈ comps := by rw [List.getD_eq_getElem _ _ hk]; exact List.getElem_mem hk
        have hz' : d.zOrder[k]? = some (comps.getD k 0) := by
          rw [hz k hk, List.getD_eq_getElem _ _ hk, List.getElem?_eq_getElem hk]
        rw [List.map_cons, List.flatMap_cons, List.append_assoc] at a1 a2 a3 a4
        have hl := hpos _ hi y x
        rw [List.length_append] at a1
        obtain ⟨b', s', e, q1, q2⟩ := interComponent_step I G hshape htab hi hz' hy hx (by omega) a2 a3 a4
        exact ⟨b', s', e, ⟨n - 1, by omega, q1, q2, (List.nodup_append.1 a4).2.1⟩,
          fun k hk => a5 k (List.mem_cons_of_mem _ hk)⟩)
      (List.range comps.length) bufs t ⟨⟨n, by rw [hrange]; exact ⟨hn, hQ, hH, hnd⟩⟩, fun k hk => List.mem_range.1 hk⟩
    simp only [List.map_nil, List.flatMap_nil, List.nil_append] at q1 q2 q3
    exact ⟨b', t', n', e, q1, q2, q3⟩
  rw [hcells] at hn hQ hH hnd
  obtain ⟨b', t', e, ⟨n', q1, q2, q3, -⟩, -⟩ := foldM_list
    (f := fun bufs (ij : Nat × Nat) => M.foldM (List.range comps.length) bufs (interComponent ij.1 ij.2))
    (fun l bufs t => (∃ n, (l.flatMap fun ij => comps.flatMap (compCells shape ij.1 ij.2)).length +
          reserve ≤ n ∧
        Q (l.flatMap fun ij => comps.flatMap (compCells shape ij.1 ij.2)) n t ∧
        InterHolds own S L lev comps B al cs.length
          (l.flatMap fun ij => comps.flatMap (compCells shape ij.1 ij.2)) bufs ∧
        (l.flatMap fun ij => comps.flatMap (compCells shape ij.1 ij.2)).Nodup) ∧
        ∀ ij ∈ l, ij.1 < Y ∧ ij.2 < X)
    (by
      rintro ij l b s ⟨⟨n, a1, a2, a3, a4⟩, a5⟩
      obtain ⟨h1, h2⟩ := a5 ij List.mem_cons_self
      rw [List.flatMap_cons] at a1 a2 a3 a4
      obtain ⟨b', s', n', e, q1, q2, q3⟩ := mcu ij.1 ij.2 h1 h2 _ n b s a1 a2 a3 a4
      exact ⟨b', s', e, ⟨n', q1, q2, q3, (List.nodup_append.1 a4).2.1⟩,
        fun k hk => a5 k (List.mem_cons_of_mem _ hk)⟩)
    (samplePairs Y X) bufs t ⟨⟨n, hn, hQ, hH, hnd⟩, fun k hk => mem_samplePairs.1 hk⟩
  simp only [List.flatMap_nil, List.length_nil] at q1 q2 q3
  exact ⟨b', t', n', e, q2, by omega, q3⟩

end

end Zune
