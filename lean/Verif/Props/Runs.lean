import Verif.Props.Scan
/-!
# End-of-band runs and restarts

C23; counterexamples to C22 and C55.
-/

namespace Zune
open M (wp wp_bind wp_mono wp_pure wp_throw wp_idx wp_idx_of wp_okOr wp_ofOut wp_failIf wp_ite_of
  wp_diverge wp_panic wp_unwrap wp_get wp_modify)
open Spec

namespace Spec

/-- The first pass over a band of coefficients as T.81 (figure G.3) describes it: the data units are
visited one by one in raster order; as long as an end-of-band run is in progress the unit is left
alone and the run becomes one unit shorter, otherwise the unit is decoded. `n` units are left, `p` is
the number of the next one and `place` says where it is kept. -/
def bandScan (table : HuffmanTable) (place : Nat → Nat) : Nat → Nat → List I16 → M B (List I16)
  | 0, _, buf => pure buf
  | n + 1, p, buf => do
    let s ← M.get
    if s.bs.eobRun = 0 then
      let b ← decodeMcuAcFirst table ((buf.drop (place p)).take 64)
      bandScan table place n (p + 1) (writeAt buf (place p) b)
    else
      M.modify fun s => { s with bs := { s.bs with eobRun := s.bs.eobRun - 1 } }
      bandScan table place n (p + 1) buf

/-- A bit reader with another end-of-band run. -/
def withRun (s : B) (e : Nat) : B := { s with bs := { s.bs with eobRun := e } }

/-- The bit readers agree in everything except the end-of-band run. -/
def SameButRun (s s' : B) : Prop := withRun s 0 = withRun s' 0

end Spec

theorem bandScan_skip {table : HuffmanTable} {place : Nat → Nat} (n p : Nat) (buf : List I16) {s : B}
    (h : s.bs.eobRun ≠ 0) : bandScan table place (n + 1) p buf s =
      bandScan table place n (p + 1) buf (withRun s (s.bs.eobRun - 1)) := by
  rw [bandScan]
  simp only [M.bind_apply, M.get, if_neg h, M.modify]
  rfl

theorem bandScan_data {table : HuffmanTable} {place : Nat → Nat} (n p : Nat) (buf : List I16) {s : B}
    (h : s.bs.eobRun = 0) : bandScan table place (n + 1) p buf s =
      (decodeMcuAcFirst table ((buf.drop (place p)).take 64) >>= fun b =>
        bandScan table place n (p + 1) (writeAt buf (place p) b)) s := by
  rw [bandScan, M.bind_apply]
  simp only [M.get, if_pos h]

/-- A run that ends inside the image. -/
theorem bandScan_run (table : HuffmanTable) (place : Nat → Nat) :
    ∀ (e n p : Nat) (buf : List I16) (s : B), s.bs.eobRun = e → e ≤ n →
      bandScan table place n p buf s = bandScan table place (n - e) (p + e) buf (withRun s 0)
  | 0, n, p, buf, s, he, _ => by
    have : withRun s 0 = s := by
      unfold withRun
      rw [← he]
    rw [this]
    rfl
  | e + 1, 0, p, buf, s, he, hn => by omega
  | e + 1, n + 1, p, buf, s, he, hn => by
    rw [bandScan_skip _ _ _ (by omega), bandScan_run table place e n (p + 1) buf _
      (show s.bs.eobRun - 1 = e by omega) (by omega), Nat.add_sub_add_right,
      show p + 1 + e = p + (e + 1) by omega]
    rfl

/-- A run that goes beyond the last unit. -/
theorem bandScan_over (table : HuffmanTable) (place : Nat → Nat) :
    ∀ (n p : Nat) (buf : List I16) (s : B), n ≤ s.bs.eobRun →
      bandScan table place n p buf s = (.ok buf, withRun s (s.bs.eobRun - n))
  | 0, p, buf, s, _ => rfl
  | n + 1, p, buf, s, hn => by
    rw [bandScan_skip _ _ _ (by omega), bandScan_over table place n (p + 1) buf _
      (show n ≤ s.bs.eobRun - 1 by omega)]
    show (_, withRun s (s.bs.eobRun - 1 - n)) = _
    rw [Nat.sub_sub, Nat.add_comm 1 n]

theorem writeAt_self {α : Type} {l : List α} {pos n : Nat} :
    writeAt l pos ((l.drop pos).take n) = l := by
  unfold writeAt
  rw [List.append_assoc]
  conv_rhs => rw [← List.take_append_drop pos l]
  congr 1
  conv_rhs => rw [← List.take_append_drop n (l.drop pos)]
  congr 1
  rw [List.drop_drop, List.length_take, List.length_drop]
  rcases Nat.le_total n (l.length - pos) with h | h
  · rw [Nat.min_eq_left h]
  · rw [Nat.min_eq_right h, List.drop_eq_nil_of_le (by omega), List.drop_eq_nil_of_le (by omega)]

theorem set_same {α : Type} {l : List α} {k : Nat} {a : α} (h : l[k]? = some a) : l.set k a = l := by
  obtain ⟨h1, h2⟩ := List.getElem?_eq_some_iff.1 h
  rw [← h2, List.set_getElem_self]

theorem countDown_idle {t : T} (h : 1 < t.dec.todo) :
    countDown t = (.ok (), { t with dec := { t.dec with todo := t.dec.todo - 1 } }) := by
  unfold countDown wrappingPred
  dsimp only
  rw [if_neg (by omega : ¬ t.dec.todo = 0), if_neg (by omega : ¬ t.dec.todo - 1 = 0)]

/-- The invariant of a scan over a band of component `k`. -/
structure Band (d : Decoder) (k : Nat) (c : Component) (table : HuffmanTable) : Prop where
  comp : d.components[k]? = some c
  tab : d.acTables[c.acHuffTable]? = some (some table)
  start : d.specStart ≠ 0
  high : d.succHigh = 0

theorem Band.progBlock_run {k : Nat} {c : Component} {table : HuffmanTable} {t : T}
    (B : Band t.dec k c table) (mw i j : Nat) (block : List I16) (he : 0 < t.io.bs.eobRun) :
    progBlock k mw i j block t = (.ok (i + (j + t.io.bs.eobRun - 1) / mw,
      (j + t.io.bs.eobRun - 1) % mw, block), { t with io := withRun t.io 0 }) := by
  unfold progBlock
  simp only [M.bind_apply, M.get, M.idx, B.comp, if_neg B.start, progTable, B.tab, if_pos B.high,
    gt_iff_lt, if_pos he, M.modify]
  rfl

theorem Band.progBlock_data {k : Nat} {c : Component} {table : HuffmanTable} {t : T}
    (B : Band t.dec k c table) (mw i j : Nat) (block : List I16) (he : t.io.bs.eobRun = 0) :
    progBlock k mw i j block t =
      ((decodeMcuAcFirst table block t.io).1.map fun b => (i, j, b),
        { t with io := (decodeMcuAcFirst table block t.io).2 }) := by
  unfold progBlock
  simp only [M.bind_apply, M.get, M.idx, B.comp, if_neg B.start, progTable, B.tab, if_pos B.high,
    gt_iff_lt, he, Nat.lt_irrefl, if_false, liftB]
  rcases decodeMcuAcFirst table block t.io with ⟨_ | _ | _ | _, s⟩ <;> rfl

theorem row_col_div {n r c : Nat} (hc : c < n) : (r * n + c) / n = r ∧ (r * n + c) % n = c := by
  constructor
  · rw [Nat.add_comm, Nat.add_mul_div_right _ _ (by omega), Nat.div_eq_of_lt hc, Nat.zero_add]
  · rw [Nat.add_comm, Nat.add_mul_mod_self_right, Nat.mod_eq_of_lt hc]

theorem acFirst_same {table : HuffmanTable} {block : List I16} {s : B} (hb : block.length = 64)
    (hse : s.bs.specEnd ≤ 63) : ∀ {b s'}, decodeMcuAcFirst table block s = (.ok b, s') →
      SameP s s' ∧ b.length = 64 := by
  intro b s' e
  have h : wp True False (decodeMcuAcFirst table block) (fun b' s' => SameP s s' ∧ b'.length = 64)
      (fun _ _ => True) s :=
    wp_decodeMcuAcFirst (fun h => absurd trivial h) (fun h => absurd trivial h) hb (by omega)
      (fun b s' h h' => ⟨h, h'⟩) (fun _ _ _ => trivial)
  have h' := M.wp_ok h e
  exact h'

section
variable {k mw mh : Nat} {c : Component} {table : HuffmanTable}

theorem progLoop_end (fuel i j : Nat) (bufs : List (List I16)) (t : T) (h : mh ≤ i) :
    progLoop k mw mh fuel i j bufs t = (.ok bufs, t) := by
  cases fuel <;> unfold progLoop <;> rw [if_neg (by omega)] <;> rfl

/-- The loop of the code against the description above. -/
theorem progLoop_band :
    ∀ (fuel i j : Nat) (buf : List I16) (bufs : List (List I16)) (t : T) (n : Nat),
    Band t.dec k c table → t.io.bs.specEnd ≤ 63 → j ≤ mw → 0 < mw →
    mh * (mw + 1) + 1 ≤ fuel + (i * (mw + 1) + j) →
    i * mw + j + n = mh * mw → n < t.dec.todo → bufs[k]? = some buf →
    (∀ i j, i < mh → j < mw → progPos c i j + 64 ≤ buf.length) →
    let r := progLoop k mw mh fuel i j bufs t
    let r' := bandScan table (fun p => progPos c (p / mw) (p % mw)) n (i * mw + j) buf t.io
    r.1 = r'.1.map (bufs.set k) ∧ SameButRun r.2.io r'.2 ∧
      r.2 = { t with io := r.2.io, dec := { t.dec with todo := r.2.dec.todo } }
  | 0, i, j, buf, bufs, t, n, B, hse, hj, hm, hf, hn, ht, hb, hr => by
    exfalso
    have hi : i ≤ mh := by
      by_contra hc
      have : (mh + 1) * mw ≤ i * mw := Nat.mul_le_mul_right _ (by omega)
      rw [Nat.add_mul] at this
      omega
    rw [Nat.mul_add, Nat.mul_add] at hf
    omega
  | fuel + 1, i, j, buf, bufs, t, n, B, hse, hj, hm, hf, hn, ht, hb, hr => by
    dsimp only
    by_cases hi : i < mh
    swap
    · rw [progLoop_end _ _ _ _ _ (by omega)]
      obtain rfl : n = 0 := by
        have : mh * mw ≤ i * mw := Nat.mul_le_mul_right _ (by omega)
        omega
      refine ⟨?_, rfl, rfl⟩
      rw [bandScan]
      show Out.ok bufs = Out.ok (bufs.set k buf)
      rw [set_same hb]
    by_cases hjw : j < mw
    swap
    · have hjm : j = mw := by omega
      rw [progLoop, if_pos hi, if_neg (by omega)]
      have := progLoop_band fuel (i + 1) 0 buf bufs t n B hse (by omega) hm
        (by rw [Nat.add_mul]; omega) (by rw [Nat.add_mul]; omega) ht hb hr
      dsimp only at this
      rw [show (i + 1) * mw + 0 = i * mw + j by rw [hjm]; ring] at this
      exact this
    · have hnp : 0 < n := by
        have : (i + 1) * mw ≤ mh * mw := Nat.mul_le_mul_right _ hi
        rw [Nat.add_mul] at this
        omega
      have hdiv : (i * mw + j) / mw = i ∧ (i * mw + j) % mw = j := row_col_div hjw
      have hroom' := hr i j hi hjw
      rw [progLoop, if_pos hi, if_pos hjw]
      simp only [M.bind_apply, M.get, M.idx, B.comp, M.unwrap, hb, if_pos hroom']
      rcases Nat.eq_zero_or_pos t.io.bs.eobRun with he | he
      · rw [B.progBlock_data mw i j _ he]
        obtain ⟨m, rfl⟩ : ∃ m, n = m + 1 := ⟨n - 1, by omega⟩
        rw [bandScan_data _ _ _ he, M.bind_apply]
        rw [hdiv.1, hdiv.2]
        have hlen : ((buf.drop (progPos c i j)).take 64).length = 64 := by
          rw [List.length_take, List.length_drop]; omega
        rcases hd : decodeMcuAcFirst table ((buf.drop (progPos c i j)).take 64) t.io with
          ⟨b | e | e | _, s'⟩
        · obtain ⟨hs, hbl⟩ := acFirst_same hlen hse hd
          dsimp only [Out.map]
          rw [countDown_idle (by dsimp only; omega)]
          dsimp only
          have hwl : (writeAt buf (progPos c i j) b).length = buf.length :=
            length_writeAt (by omega)
          have hk : k < bufs.length := (List.getElem?_eq_some_iff.1 hb).1
          obtain ⟨h1, h2, h3⟩ := progLoop_band fuel i (j + 1) (writeAt buf (progPos c i j) b)
            (bufs.set k (writeAt buf (progPos c i j) b))
            { t with dec := { t.dec with todo := t.dec.todo - 1 }, io := s' } m
            ⟨B.comp, B.tab, B.start, B.high⟩ (by rw [hs.se]; exact hse) (by omega) hm (by omega)
            (by omega) (by dsimp only; omega)
            (by rw [List.getElem?_set_self hk])
            (by rw [hwl]; exact hr)
          rw [← Nat.add_assoc] at h1 h2
          refine ⟨?_, h2, ?_⟩
          · rw [h1]
            congr 1
            funext x
            rw [List.set_set]
          · rw [h3]
        · exact ⟨rfl, rfl, rfl⟩
        · exact ⟨rfl, rfl, rfl⟩
        · exact ⟨rfl, rfl, rfl⟩
      · rw [B.progBlock_run mw i j _ he]
        dsimp only
        rw [countDown_idle (by dsimp only; omega), writeAt_self,
          set_same hb]
        dsimp only
        have hpos : (i + (j + t.io.bs.eobRun - 1) / mw) * mw + (j + t.io.bs.eobRun - 1) % mw =
            i * mw + j + t.io.bs.eobRun - 1 := by
          have := Nat.div_add_mod (j + t.io.bs.eobRun - 1) mw
          rw [Nat.add_mul, Nat.mul_comm (_ / _)]
          omega
        have hstep := raster_step (i := i) hjw he
        generalize hi' : i + (j + t.io.bs.eobRun - 1) / mw = i' at *
        generalize hj' : (j + t.io.bs.eobRun - 1) % mw = j' at *
        rcases Nat.lt_or_ge n t.io.bs.eobRun with hov | hin
        · have : mh ≤ i' := by
            by_contra hc
            have : (i' + 1) * mw ≤ mh * mw := Nat.mul_le_mul_right _ (by omega)
            rw [Nat.add_mul] at this
            omega
          rw [progLoop_end _ _ _ _ _ this, bandScan_over _ _ _ _ _ _ (by omega)]
          refine ⟨?_, rfl, rfl⟩
          show Out.ok bufs = Out.ok (bufs.set k buf)
          rw [set_same hb]
        · obtain ⟨h1, h2, h3⟩ := progLoop_band fuel i' (j' + 1) buf bufs
            { t with dec := { t.dec with todo := t.dec.todo - 1 }, io := withRun t.io 0 }
            (n - t.io.bs.eobRun)
            ⟨B.comp, B.tab, B.start, B.high⟩ hse (by omega) hm (by omega)
            (by omega) (by dsimp only; omega) hb hr
          rw [bandScan_run _ _ _ _ _ _ _ rfl hin]
          rw [show i' * mw + (j' + 1) = i * mw + j + t.io.bs.eobRun by omega] at h1 h2
          refine ⟨h1, h2, ?_⟩
          rw [h3]
end

/-- The number of data units of a scan of component `c` alone: columns and rows. -/
def Spec.scanSize (d : Decoder) (c : Component) : Nat × Nat :=
  if c.componentId = .y ∨ d.interleaved = false then
    (blocks8 d.info.width, blocks8 d.info.height) else (d.mcuX, d.mcuY)

/-- **C23**, one step: at unit `(i, j)` of a scan of `mw` columns, a run of `e` units that is in
progress moves on by `e` units: this unit and the `e - 1` following ones in raster order. The loop
adds one to the column that is returned. The coefficients stay as they are and the run is over. -/
theorem c23_step {k : Nat} {c : Component} {table : HuffmanTable} {t : T}
    (hc : t.dec.components[k]? = some c)
    (ht : t.dec.acTables[c.acHuffTable]? = some (some table)) (hs : t.dec.specStart ≠ 0)
    (hh : t.dec.succHigh = 0) {mw i j : Nat} (hj : j < mw) (block : List I16)
    (he : 0 < t.io.bs.eobRun) :
    ∃ i' j', progBlock k mw i j block t = (.ok (i', j', block), { t with io := withRun t.io 0 }) ∧
      j' < mw ∧ i' * mw + (j' + 1) = i * mw + j + t.io.bs.eobRun := by
  refine ⟨_, _, Band.progBlock_run ⟨hc, ht, hs, hh⟩ mw i j block he, Nat.mod_lt _ (by omega), ?_⟩
  have := Nat.div_add_mod (j + t.io.bs.eobRun - 1) mw
  rw [Nat.add_mul, Nat.mul_comm (_ / _)]
  omega

/-- **C23**: the first pass over a band of one component does to the coefficients what T.81
describes unit by unit, for every size of the image, all tables and all data, as long as no restart
is due. It ends with the same outcome and, apart from what is left of a run, the same reader; of the
decoder only the restart counter changes. -/
theorem c23_band {t : T} {w h fh fv : Nat} (F : Frame t.dec w h fh fv)
    (hdim : t.dec.checkComponentDimensions = .ok ())
    (hone : t.dec.numScans = 1) (hcs : 0 < t.dec.inputColorspace.numComponents)
    {k : Nat} (hz : t.dec.zOrder[0]? = some k) {c : Component}
    (hk : k < t.dec.inputColorspace.numComponents)
    (hc : t.dec.components[k]? = some c) {table : HuffmanTable}
    (ht : t.dec.acTables[c.acHuffTable]? = some (some table)) (hs : t.dec.specStart ≠ 0)
    (hh : t.dec.succHigh = 0) (hse : t.io.bs.specEnd ≤ 63)
    {mw : Nat} {b0 bufs : List (List I16)} (ha : progAlloc t.dec = .ok (mw, b0))
    {buf : List I16} (hb : bufs[k]? = some buf)
    (hlen : (b0[k]?.map List.length) = some buf.length)
    (hcols : 0 < (scanSize t.dec c).1)
    (hrst : (scanSize t.dec c).1 * (scanSize t.dec c).2 < t.dec.todo) :
    let r := parseEntropy bufs t
    let r' := bandScan table (fun p => progPos c (p / (scanSize t.dec c).1) (p % (scanSize t.dec c).1))
      ((scanSize t.dec c).1 * (scanSize t.dec c).2) 0 buf { t.io with bs := t.io.bs.reset }
    r.1 = r'.1.map (bufs.set k) ∧ SameButRun r.2.io r'.2 ∧
      r.2 = { t with
        io := r.2.io
        dec := { t.dec with
          todo := r.2.dec.todo
          components := t.dec.components.map fun c => { c with dcPred := 0 } } } := by
  have hklt : k < t.dec.components.length := (List.getElem?_eq_some_iff.1 hc).1
  obtain ⟨buf0, n, hb0, hl0, hin, -, -⟩ := c30_single F ha hc hk (cols := (scanSize t.dec c).1)
    (rows := (scanSize t.dec c).2) rfl
  rw [hb0] at hlen
  have hlen' : buf0.length = buf.length := Option.some.inj hlen
  generalize hcr : scanSize t.dec c = cr at *
  obtain ⟨cols, rows⟩ := cr
  dsimp only at hin hcols hrst ⊢
  have hroom : ∀ i j, i < rows → j < cols →
      progPos { c with dcPred := 0 } i j + 64 ≤ buf.length := by
    intro i j hi hj
    obtain ⟨q, hq, he⟩ := hin (i, j) ⟨hi, hj⟩
    change progPos c i j = _ at he
    change progPos c i j + 64 ≤ _
    omega
  have hc' : (t.dec.components.map fun c => { c with dcPred := 0 })[k]? =
      some { c with dcPred := 0 } := by
    rw [List.getElem?_map, hc]
    rfl
  have key := progLoop_band (mw := cols) (mh := rows) (c := { c with dcPred := 0 }) (table := table)
    (k := k) ((cols + 1) * rows + 1) 0 0 buf bufs
    { t with
      io := { t.io with bs := t.io.bs.reset }
      dec := { t.dec with components := t.dec.components.map fun c => { c with dcPred := 0 } } }
    (cols * rows) ⟨hc', ht, hs, hh⟩ hse (by omega) hcols (by rw [Nat.mul_comm rows]; omega)
    (by rw [Nat.mul_comm rows]; omega) hrst hb hroom
  have hpe : parseEntropy bufs t = progLoop k cols rows ((cols + 1) * rows + 1) 0 0 bufs
    { t with
      io := { t.io with bs := t.io.bs.reset }
      dec := { t.dec with components := t.dec.components.map fun c => { c with dcPred := 0 } } } := by
    unfold parseEntropy
    simp only [M.bind_apply, M.get, M.ofOut, hdim, M.modify]
    rw [if_neg (by omega), if_pos hone, if_neg (by tauto)]
    simp only [M.bind_apply, M.idx, hz, List.length_map]
    rw [if_neg (by omega)]
    unfold scanSize at hcr
    simp only [M.bind_apply, M.idx, hc', hcr]
  rw [hpe]
  dsimp only at key
  rw [Nat.zero_mul] at key
  obtain ⟨h1, h2, h3⟩ := key
  exact ⟨h1, h2, h3⟩

/-- A progressive grayscale file of 24x24 pixels whose first scan is over the band 1..5. The codes
are `00` for the end of the band, `01` for a coefficient of one bit, `10` for an end-of-band run of
4 to 7. The data is: unit 0 has the coefficient 1 and starts a run of 5, unit 5 has the coefficient
1 and ends, unit 6 starts a run of 7 of which three are inside the image. -/
def bandFile : List UInt8 :=
  [0xFF, 0xD8] ++
  [0xFF, 0xDB, 0x00, 0x43, 0x00] ++ List.replicate 64 1 ++
  [0xFF, 0xC2, 0x00, 0x0B, 8, 0, 24, 0, 24, 1, 1, 0x11, 0] ++
  ([0xFF, 0xC4, 0x00, 0x16, 0x10, 0, 3] ++ List.replicate 14 0 ++ [0x00, 0x01, 0x20]) ++
  [0xFF, 0xDA, 0x00, 0x08, 1, 1, 0x00, 1, 5, 0, 0x72, 0xCB] ++ [0xFF, 0xD9]

/-- The state before the first scan of a file. -/
def beforeScan (buf : List UInt8) : T :=
  { dec := (afterHeaders buf).dec, io := progIo (afterHeaders buf) }

/-- `c23_band` applies to it. -/
example : Frame (beforeScan bandFile).dec 24 24 1 1 := frame_of_check (by decide +kernel)
example : (let t := beforeScan bandFile
    match progAlloc t.dec, t.dec.components, t.dec.acTables with
    | .ok (_, bufs), [c], some _ :: _ =>
      decide (t.dec.checkComponentDimensions = .ok () ∧ t.dec.numScans = 1 ∧
        0 < t.dec.inputColorspace.numComponents ∧ t.dec.zOrder[0]? = some 0 ∧
        c.acHuffTable = 0 ∧ t.dec.specStart ≠ 0 ∧ t.dec.succHigh = 0 ∧ t.io.bs.specEnd ≤ 63 ∧
        (bufs[0]?.map List.length) = some 576 ∧ scanSize t.dec c = (3, 3) ∧ 3 * 3 < t.dec.todo)
    | _, _, _ => false) = true := by decide +kernel

/-- The scan puts the two coefficients where they belong. -/
example : (match parseEntropy [List.replicate 576 0] (beforeScan bandFile) with
    | (.ok [b], _) => decide ((List.range 576).filter (fun i => decide (b[i]? ≠ some 0)) = [1, 321] ∧
        b[1]? = some 1 ∧ b[321]? = some 1)
    | _ => false) = true := by decide +kernel

/-! ### C22 and C55: images with three components -/

/-- A baseline file with three components that are not subsampled. The DC codes are `00` for the
difference zero and `01` for differences of three bits; the AC code is `0`, the end of the block.
`segs` are further segments. -/
def threeFile (w h : UInt8) (segs body : List UInt8) : List UInt8 :=
  [0xFF, 0xD8] ++
  [0xFF, 0xDB, 0x00, 0x43, 0x00] ++ List.replicate 64 8 ++
  [0xFF, 0xC0, 0x00, 0x11, 8, 0, h, 0, w, 3, 1, 0x11, 0, 2, 0x11, 0, 3, 0x11, 0] ++
  ([0xFF, 0xC4, 0x00, 0x15, 0x00, 0, 2] ++ List.replicate 14 0 ++ [0, 3]) ++
  ([0xFF, 0xC4, 0x00, 0x14, 0x10, 1] ++ List.replicate 15 0 ++ [0]) ++ segs ++
  [0xFF, 0xDA, 0x00, 0x0C, 3, 1, 0x00, 2, 0x00, 3, 0x00, 0, 63, 0] ++ body ++ [0xFF, 0xD9]

/-- **C22** is false: an image of two MCUs with three components, both with the luma coefficient 7,
the Cb coefficient -7 and the Cr coefficient 0. The first file has no restart interval (and twelve
bytes of filling, because of `c55_false`); its bits are `01 111 0`, `01 000 0`, `00 0`, then
`00 0` three times. The second file has a restart after each MCU: the bits of the first MCU, a padding
bit, RST0, the same bits again. It comes out differently: restarts are counted per component, so the
decoder resets in the middle of the first MCU. -/
theorem c22_false :
    ((Decoder.new ⟨false, false⟩).decodeBuffer
      (threeFile 16 8 [] ([0x79, 0x00, 0x00] ++ List.replicate 12 0))).1 =
      .ok ((List.replicate 128 [135, 138, 122]).flatten) ∧
    ((Decoder.new ⟨false, false⟩).decodeBuffer
      (threeFile 16 8 [0xFF, 0xDD, 0, 4, 0, 1] [0x79, 0x01, 0xFF, 0xD0, 0x79, 0x01])).1 =
      .ok ((List.replicate 8
        ((List.replicate 8 [135, 133, 147]).flatten ++ List.replicate 24 121)).flatten) := by
  decide +kernel

/-- **C55** is false: the image of `c22_false` without restarts and without filling comes out with the
chroma values of both MCUs and the luma value of the second one lost. The reader has already seen EOI
when the first luma block has been decoded, and the decoder then skips the rest of the MCU. -/
theorem c55_false :
    ((Decoder.new ⟨false, false⟩).decodeBuffer (threeFile 16 8 [] [0x79, 0x00, 0x00])).1 =
      .ok ((List.replicate 8 (List.replicate 24 135 ++ List.replicate 24 128)).flatten) ∧
    ((Decoder.new ⟨false, false⟩).decodeBuffer
      (threeFile 16 8 [] ([0x79, 0x00, 0x00] ++ List.replicate 12 0))).1 =
      .ok ((List.replicate 128 [135, 138, 122]).flatten) := by
  decide +kernel

end Zune
