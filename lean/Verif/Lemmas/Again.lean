import Verif.Lemmas.HeaderLoop
import Verif.Lemmas.Local
/-! Reading the same headers twice with the same decoder. -/

namespace Zune
open M (wp wp_bind wp_mono)

/-! ### Two runs -/

/-- If `m` succeeds on `s` then `m'` succeeds on `s'`, with related results. -/
def Twice {α β : Type} (m : M H α) (m' : M H β) (s s' : H) (Q : α → β → H → H → Prop) : Prop :=
  ∀ a t, m s = (.ok a, t) → ∃ a' t', m' s' = (.ok a', t') ∧ Q a a' t t'

section
variable {α β γ δ : Type} {s s' : H} {d d' : Decoder} {rd : List UInt8}

theorem Twice.mono {m : M H α} {m' : M H β} {Q Q' : α → β → H → H → Prop}
    (h : Twice m m' s s' Q) (hq : ∀ a a' t t', Q a a' t t' → Q' a a' t t') : Twice m m' s s' Q' := by
  intro a t e
  obtain ⟨a', t', h1, h2⟩ := h a t e
  exact ⟨a', t', h1, hq _ _ _ _ h2⟩

/-- What is known about the first run may be used. -/
theorem Twice.also {m : M H α} {m' : M H β} {Q : α → β → H → H → Prop} {P : α → H → Prop}
    {E : DecodeErr → H → Prop} (hp : wp True True m P E s)
    (h : Twice m m' s s' fun a a' t t' => P a t → Q a a' t t') : Twice m m' s s' Q := by
  intro a t e
  obtain ⟨a', t', h1, h2⟩ := h a t e
  exact ⟨a', t', h1, h2 (M.wp_ok hp e)⟩

theorem Twice.also' {m : M H α} {m' : M H β} {Q : α → β → H → H → Prop} {P : β → H → Prop}
    {E : DecodeErr → H → Prop} (hp : wp True True m' P E s')
    (h : Twice m m' s s' fun a a' t t' => P a' t' → Q a a' t t') : Twice m m' s s' Q := by
  intro a t e
  obtain ⟨a', t', h1, h2⟩ := h a t e
  exact ⟨a', t', h1, h2 (M.wp_ok hp h1)⟩

theorem Twice.bind {m : M H α} {m' : M H β} {f : α → M H γ} {f' : β → M H δ}
    {Q : γ → δ → H → H → Prop}
    (h : Twice m m' s s' fun a a' t t' => Twice (f a) (f' a') t t' Q) :
    Twice (m >>= f) (m' >>= f') s s' Q := by
  intro b t e
  obtain ⟨a, s1, h1, h2⟩ := M.bind_ok_inv e
  obtain ⟨a', s1', h3, h4⟩ := h a s1 h1
  obtain ⟨b', t', h5, h6⟩ := h4 b t h2
  exact ⟨b', t', by rw [M.bind_ok h3, h5], h6⟩

theorem Twice.pure {a : α} {b : β} {Q : α → β → H → H → Prop} (h : Q a b s s') :
    Twice (Pure.pure a : M H α) (Pure.pure b) s s' Q := by
  intro a t e
  simp at e
  obtain ⟨rfl, rfl⟩ := e
  exact ⟨b, s', rfl, h⟩

theorem Twice.throw {e : DecodeErr} {m' : M H β} {Q : α → β → H → H → Prop} :
    Twice (M.throw e) m' s s' Q := by
  intro a t h; simp at h
theorem Twice.panic {e : Site} {m' : M H β} {Q : α → β → H → H → Prop} :
    Twice (M.panic e) m' s s' Q := by
  intro a t h; simp at h
theorem Twice.diverge {m' : M H β} {Q : α → β → H → H → Prop} :
    Twice M.diverge m' s s' Q := by
  intro a t h; simp at h

theorem Twice.ite {c c' : Prop} [Decidable c] [Decidable c'] {m n : M H α} {m' n' : M H β}
    {Q : α → β → H → H → Prop} (hc : c' ↔ c) (h1 : c → Twice m m' s s' Q)
    (h2 : ¬ c → Twice n n' s s' Q) :
    Twice (if c then m else n) (if c' then m' else n') s s' Q := by
  by_cases h : c
  · rw [if_pos h, if_pos (hc.2 h)]; exact h1 h
  · rw [if_neg h, if_neg (fun k => h (hc.1 k))]; exact h2 h

theorem Twice.ofOut {o : Out α} {Q : α → α → H → H → Prop} (h : ∀ a, o = .ok a → Q a a s s') :
    Twice (M.ofOut o) (M.ofOut o) s s' Q := by
  intro a t e
  simp [M.ofOut] at e
  obtain ⟨rfl, rfl⟩ := e
  exact ⟨a, s', rfl, h a rfl⟩

theorem Twice.okOr {o : Option α} {o' : Option β} {e : DecodeErr} {Q : α → β → H → H → Prop}
    (h : ∀ a, o = some a → ∃ b, o' = some b ∧ Q a b s s') :
    Twice (M.okOr o e) (M.okOr o' e) s s' Q := by
  intro a t he
  unfold M.okOr at he
  cases o with
  | none => simp at he
  | some x =>
    simp at he
    obtain ⟨rfl, rfl⟩ := he
    obtain ⟨b, rfl, hb⟩ := h _ rfl
    exact ⟨b, s', rfl, hb⟩

theorem Twice.idx {l : List α} {l' : List β} {i i' : Nat} {Q : α → β → H → H → Prop}
    (h : ∀ a, l[i]? = some a → ∃ b, l'[i']? = some b ∧ Q a b s s') :
    Twice (M.idx l i) (M.idx l' i') s s' Q := by
  intro a t he
  unfold M.idx at he
  cases hl : l[i]? with
  | none => rw [hl] at he; simp at he
  | some x =>
    rw [hl] at he
    simp at he
    obtain ⟨rfl, rfl⟩ := he
    obtain ⟨b, hb, hq⟩ := h _ hl
    exact ⟨b, s', M.idx_some hb _, hq⟩

theorem Twice.failIf {c : Bool} {e : DecodeErr} {Q : Unit → Unit → H → H → Prop}
    (h : c = false → Q () () s s') : Twice (M.failIf c e) (M.failIf c e) s s' Q := by
  intro a t he
  unfold M.failIf at he
  cases c with
  | true => simp at he
  | false =>
    simp at he
    obtain ⟨rfl, rfl⟩ := he
    exact ⟨(), s', rfl, h rfl⟩

theorem Twice.getDec {Q : Decoder → Decoder → H → H → Prop} (h : Q d d' ⟨d, rd⟩ ⟨d', rd⟩) :
    Twice getDec getDec ⟨d, rd⟩ ⟨d', rd⟩ Q := by
  rintro a t e
  rw [show Zune.getDec ⟨d, rd⟩ = (.ok d, ⟨d, rd⟩) from rfl] at e
  simp at e
  obtain ⟨rfl, rfl⟩ := e
  exact ⟨d', _, rfl, h⟩

theorem Twice.modDec {f f' : Decoder → Decoder} {Q : Unit → Unit → H → H → Prop}
    (h : Q () () ⟨f d, rd⟩ ⟨f' d', rd⟩) : Twice (modDec f) (modDec f') ⟨d, rd⟩ ⟨d', rd⟩ Q := by
  rintro a t e
  rw [show Zune.modDec f ⟨d, rd⟩ = (.ok (), ⟨f d, rd⟩) from rfl] at e
  simp at e
  obtain rfl := e
  exact ⟨(), _, rfl, h⟩

theorem Twice.readByte {Q : UInt8 → UInt8 → H → H → Prop}
    (h : ∀ b r, rd = b :: r → Q b b ⟨d, r⟩ ⟨d', r⟩) :
    Twice readByte readByte ⟨d, rd⟩ ⟨d', rd⟩ Q := by
  rintro a t e
  unfold Zune.readByte at e
  cases rd with
  | nil => simp at e
  | cons b r =>
    simp at e
    obtain ⟨rfl, rfl⟩ := e
    exact ⟨b, _, rfl, h b r rfl⟩

theorem Twice.readU16 {e : DecodeErr} {Q : UInt16 → UInt16 → H → H → Prop}
    (h : ∀ v r, Q v v ⟨d, r⟩ ⟨d', r⟩) :
    Twice (readU16 e) (readU16 e) ⟨d, rd⟩ ⟨d', rd⟩ Q := by
  rintro a t he
  unfold Zune.readU16 at he
  match rd, he with
  | [], he => simp at he
  | [_], he => simp at he
  | x :: y :: r, he =>
    simp at he
    obtain ⟨rfl, rfl⟩ := he
    exact ⟨_, _, rfl, h _ _⟩

theorem Twice.readExact {n : Nat} {e : DecodeErr} {Q : List UInt8 → List UInt8 → H → H → Prop}
    (h : ∀ v r, v.length = n → Q v v ⟨d, r⟩ ⟨d', r⟩) :
    Twice (readExact n e) (readExact n e) ⟨d, rd⟩ ⟨d', rd⟩ Q := by
  rintro a t he
  unfold Zune.readExact at he ⊢
  dsimp only at he ⊢
  by_cases hl : rd.length < n
  · rw [if_pos hl] at he; simp at he
  · rw [if_neg hl] at he
    simp at he
    obtain ⟨rfl, rfl⟩ := he
    rw [if_neg hl]
    exact ⟨_, _, rfl, h _ _ (by simp; omega)⟩

theorem Twice.consume {n : Nat} {Q : Unit → Unit → H → H → Prop}
    (h : ∀ r, Q () () ⟨d, r⟩ ⟨d', r⟩) :
    Twice (consume n) (consume n) ⟨d, rd⟩ ⟨d', rd⟩ Q := by
  rintro a t he
  rw [show Zune.consume n ⟨d, rd⟩ = (.ok (), ⟨d, rd.drop n⟩) from rfl] at he
  simp at he
  obtain rfl := he
  exact ⟨(), _, rfl, h _⟩

theorem Twice.skipSegment {Q : Unit → Unit → H → H → Prop}
    (h : ∀ r, Q () () ⟨d, r⟩ ⟨d', r⟩) :
    Twice skipSegment skipSegment ⟨d, rd⟩ ⟨d', rd⟩ Q := by
  unfold Zune.skipSegment
  refine .bind (.readU16 fun v r => ?_)
  exact .ite Iff.rfl (fun _ => .throw) fun _ => .consume h
end

/-! ### What never decreases -/

/-- `d` can have become `c`. -/
structure Until (d c : Decoder) : Prop where
  h : d.hMax ≤ c.hMax
  v : d.vMax ≤ c.vMax
  prog : d.isProgressive = true → c.isProgressive = true
  inter : d.interleaved = true → c.interleaved = true
  xd : d.info.xDensity = c.info.xDensity
  yd : d.info.yDensity = c.info.yDensity

theorem Until.refl (d : Decoder) : Until d d :=
  ⟨Nat.le_refl _, Nat.le_refl _, id, id, rfl, rfl⟩

theorem Until.trans {a b c : Decoder} (h1 : Until a b) (h2 : Until b c) : Until a c :=
  ⟨Nat.le_trans h1.h h2.h, Nat.le_trans h1.v h2.v, fun h => h2.prog (h1.prog h),
    fun h => h2.inter (h1.inter h), h1.xd.trans h2.xd, h1.yd.trans h2.yd⟩

/-- The geometry of the frame comes from its size and the largest factors. -/
structure Dims (d : Decoder) : Prop where
  inter : d.hMax ≠ 1 ∨ d.vMax ≠ 1 → d.interleaved = true
  dims : d.info.components = 0 ∨ (d.mcuWidth = d.hMax * 8 ∧ d.mcuHeight = d.vMax * 8 ∧
    d.mcuX = (d.info.width.toNat + d.hMax * 8 - 1) / (d.hMax * 8) ∧
    d.mcuY = (d.info.height.toNat + d.vMax * 8 - 1) / (d.vMax * 8))

theorem sof_until {sof : SofMarker} {d d' : Decoder} {rd rd' : List UInt8}
    {x y h1 h2 w1 w2 n : UInt8} {cs cs' : List Component}
    (h : SofOk sof d rd d' rd' x y h1 h2 w1 w2 n cs cs') : Until d d' ∧ Dims d' := by
  have hd := h.dec
  rw [hd]
  refine ⟨⟨le_maxH _ _, le_maxV _ _, id, ?_, rfl, rfl⟩, ⟨?_, Or.inr ⟨rfl, rfl, rfl, rfl⟩⟩⟩
  · intro hi
    show (if _ then true else d.interleaved) = true
    split
    · rfl
    · exact hi
  · intro hm
    show (if _ then true else d.interleaved) = true
    exact if_pos hm

theorem effect_until {m : Marker} {s s' : H} (h : Effect m s s') :
    Until s.dec s'.dec ∧ (Dims s.dec → Dims s'.dec) := by
  unfold Effect at h
  split at h
  · obtain ⟨x, y, h1, h2, w1, w2, n, cs, cs', h⟩ := h
    exact ⟨(sof_until h).1, fun _ => (sof_until h).2⟩
  · obtain ⟨x, y, h1, h2, w1, w2, n, cs, cs', h⟩ := h
    have := (sof_until h).1
    exact ⟨⟨this.h, this.v, fun _ => this.prog rfl, this.inter, this.xd, this.yd⟩,
      fun _ => (sof_until h).2⟩
  · obtain ⟨x, y, n, ss, se, a, ps, h⟩ := h
    rw [h.dec]
    exact ⟨⟨Nat.le_refl _, Nat.le_refl _, id, id, rfl, rfl⟩, fun D => ⟨D.inter, D.dims⟩⟩
  · rw [h.dec]
    exact ⟨⟨Nat.le_refl _, Nat.le_refl _, id, id, rfl, rfl⟩, fun D => ⟨D.inter, D.dims⟩⟩

theorem headerStep_until {last m : UInt8} {count : Nat} {s t : H} {o : Option Nat}
    (h : headerStep last count m s = (.ok o, t)) :
    Until s.dec t.dec ∧ (Dims s.dec → Dims t.dec) := by
  unfold headerStep at h
  split at h
  · cases hm : Marker.fromU8 m with
    | some mk =>
      rw [hm] at h
      obtain ⟨_, s1, h1, h2⟩ := M.bind_ok_inv h
      have := M.wp_ok (wp_parseMarkerInner_raw (pn := True) (dv := True) _ (by simp) (by simp)) h1
      have e : s1 = t := by
        split at h2 <;> simp at h2 <;> exact h2.2
      subst e
      exact effect_until this.2.2
    | none =>
      rw [hm] at h
      obtain ⟨_, s1, h1, h2⟩ := M.bind_ok_inv h
      have := M.wp_ok (wp_skipSegment (pn := True) (dv := True)) h1
      simp at h2
      rw [← h2.2, this.1]
      exact ⟨.refl _, id⟩
  · simp at h
    rw [← h.2]
    exact ⟨.refl _, id⟩

theorem headerLoop_until : ∀ (fuel : Nat) (last : UInt8) (count : Nat) (s t : H),
    headerLoop fuel last count s = (.ok (), t) →
    Until s.dec t.dec ∧ (Dims s.dec → Dims t.dec)
  | 0, _, _, _, _, h => by simp [headerLoop] at h
  | fuel + 1, last, count, s, t, h => by
    unfold headerLoop at h
    obtain ⟨m, s1, h1, h2⟩ := M.bind_ok_inv h
    have e1 : s1.dec = s.dec := by
      unfold readByte at h1
      split at h1 <;> simp at h1
      rw [← h1.2]
    obtain ⟨o, s2, h3, h4⟩ := M.bind_ok_inv h2
    have k := headerStep_until h3
    rw [e1] at k
    cases o with
    | none =>
      simp at h4
      rw [← h4]
      exact k
    | some c =>
      dsimp only at h4
      obtain ⟨d, s3, h5, h6⟩ := M.bind_ok_inv h4
      have e3 : s3 = s2 := by
        simp [getDec] at h5
        exact h5.2.symm
      subst e3
      split at h6
      · simp at h6
      · have ih := headerLoop_until fuel _ _ _ _ h6
        exact ⟨k.1.trans ih.1, fun D => ih.2 (k.2 D)⟩

/-! ### The relation between the two runs -/

/-- A table built again for a progressive file. -/
def rebuild (t : HuffmanTable) : HuffmanTable :=
  (HuffmanTable.new t.bits t.values false true).getD t

/-- What becomes of an AC table slot of a decoder for a file of the given kind. -/
def rebuilt (prog : Bool) (t : Option HuffmanTable) : Option HuffmanTable :=
  if prog then t.map rebuild else t

/-- A component with the stride for the given number of units in a row. -/
def restride (mx : Nat) (c : Component) : Component :=
  { c with widthStride := c.horizontalSample * (mx * 8) }

/-- `s` is the decoder in the first run, which ends with `c`; `s'` is the decoder at the same place
of the second run. -/
structure Again (c s s' : Decoder) : Prop where
  cpu : s'.cpu = c.cpu
  idct : s'.idctFn = c.idctFn
  color : s'.colorFn = c.colorFn
  sub : s'.subSampleRatio = c.subSampleRatio
  xd : s'.info.xDensity = c.info.xDensity
  yd : s'.info.yDensity = c.info.yDensity
  prog : s'.isProgressive = c.isProgressive
  h : s'.hMax = c.hMax
  v : s'.vMax = c.vMax
  inter : s'.interleaved = c.interleaved
  opts : s'.options = s.options ∨ s'.options = c.options
  same : s'.options = { s.options with outColorspace := s'.options.outColorspace }
  input : s'.inputColorspace = s.inputColorspace ∨ s'.inputColorspace = c.inputColorspace
  restart : s'.restartInterval = s.restartInterval ∨ s'.restartInterval = c.restartInterval
  todo : s'.todo = s.todo ∨ s'.todo = c.todo
  scans : s'.numScans = s.numScans ∨ s'.numScans = c.numScans
  start : s'.specStart = s.specStart ∨ s'.specStart = c.specStart
  stop : s'.specEnd = s.specEnd ∨ s'.specEnd = c.specEnd
  high : s'.succHigh = s.succHigh ∨ s'.succHigh = c.succHigh
  low : s'.succLow = s.succLow ∨ s'.succLow = c.succLow
  zLen : s'.zOrder.length = s.zOrder.length
  z : ∀ i : Nat, s'.zOrder[i]? = s.zOrder[i]? ∨ s'.zOrder[i]? = c.zOrder[i]?
  dcLen : s'.dcTables.length = s.dcTables.length
  dc : ∀ i : Nat, s'.dcTables[i]? = s.dcTables[i]? ∨ s'.dcTables[i]? = c.dcTables[i]?
  acLen : s'.acTables.length = s.acTables.length
  ac : ∀ i : Nat, s'.acTables[i]? = s.acTables[i]?.map (rebuilt c.isProgressive) ∨
    (s.acTables[i]? = some none ∧ (s'.acTables[i]? = c.acTables[i]? ∨
      s'.acTables[i]? = c.acTables[i]?.map (rebuilt c.isProgressive)))
  qtLen : s'.qtTables.length = s.qtTables.length
  qt : ∀ i : Nat, s'.qtTables[i]? = s.qtTables[i]? ∨
    (s.qtTables[i]? = some none ∧ s'.qtTables[i]? = c.qtTables[i]?)
  frame : s.info.components = 0 ∨ (s'.info = s.info ∧
    s'.components = s.components.map (restride s'.mcuX) ∧
    s'.mcuWidth = c.hMax * 8 ∧ s'.mcuHeight = c.vMax * 8 ∧
    s'.mcuX = (s.info.width.toNat + c.hMax * 8 - 1) / (c.hMax * 8) ∧
    s'.mcuY = (s.info.height.toNat + c.vMax * 8 - 1) / (c.vMax * 8))

/-! ### Tables -/

theorem new_flag {bits values : List Nat} {isDc p q : Bool} {t : HuffmanTable}
    (h : HuffmanTable.new bits values isDc p = some t) :
    t.bits = bits ∧ t.values = values ∧ ∃ t', HuffmanTable.new bits values isDc q = some t' ∧
      (isDc = true → t' = t) := by
  unfold HuffmanTable.new at h ⊢
  dsimp only at h ⊢
  split at h
  · simp at h
  · split at h
    · simp at h
    · rename_i hc
      simp only [Option.some.injEq] at h
      subst h
      refine ⟨rfl, rfl, _, if_neg hc, ?_⟩
      intro hd
      subst hd
      rfl

theorem Again.dht {c : Decoder} : ∀ (fuel len : Nat) (d d' : Decoder) (rd : List UInt8),
    (d.isProgressive = true → c.isProgressive = true) → Again c d d' →
    Twice (parseHuffmanLoop fuel len) (parseHuffmanLoop fuel len) ⟨d, rd⟩ ⟨d', rd⟩
      fun a a' t t' => a' = a ∧ t'.rd = t.rd ∧ Again c t.dec t'.dec
  | 0, len, d, d', rd, hp, R => by
    unfold parseHuffmanLoop
    exact .ite Iff.rfl (fun _ => .diverge) fun _ => .pure ⟨rfl, rfl, R⟩
  | fuel + 1, len, d, d', rd, hp, R => by
    unfold parseHuffmanLoop
    refine .ite Iff.rfl (fun _ => ?_) fun _ => .pure ⟨rfl, rfl, R⟩
    refine .bind (.readByte fun info r _ => ?_)
    dsimp only
    refine .ite Iff.rfl (fun _ => .throw) fun hi => ?_
    refine .ite Iff.rfl (fun _ => .throw) fun hk => ?_
    refine .bind (.readExact fun counts r _ => ?_)
    refine .ite Iff.rfl (fun _ => .throw) fun _ => ?_
    refine .ite Iff.rfl (fun _ => .throw) fun _ => ?_
    refine .bind (.readExact fun syms r _ => ?_)
    refine .bind (.getDec ?_)
    refine .bind (.okOr fun t ht => ?_)
    obtain ⟨t1, t2, t', ht', hdc⟩ := new_flag (q := d'.isProgressive) ht
    refine ⟨t', ht', ?_⟩
    refine .bind (.modDec ?_)
    by_cases h0 : (info >>> 4).toNat = 0
    · simp only [if_pos h0]
      rw [hdc (by simp [h0])]
      refine Again.dht fuel _ _ _ _ hp { R with dcLen := by simp [R.dcLen], dc := fun i => ?_ }
      dsimp only
      rw [List.getElem?_set, List.getElem?_set, R.dcLen]
      by_cases e : (info &&& 15).toNat = i
      · rw [if_pos e, if_pos e]; exact Or.inl rfl
      · rw [if_neg e, if_neg e]; exact R.dc i
    · simp only [if_neg h0]
      have e : some t' = rebuilt c.isProgressive (some t) := by
        rw [R.prog] at ht'
        unfold rebuilt
        cases hcp : c.isProgressive with
        | true =>
          rw [hcp] at ht'
          simp only [if_true, Option.map_some]
          unfold rebuild
          rw [t1, t2]
          rw [decide_eq_false h0] at ht'
          rw [ht']; rfl
        | false =>
          have : d.isProgressive = false := by
            cases hd : d.isProgressive with
            | false => rfl
            | true => rw [hp hd] at hcp; cases hcp
          rw [this] at ht
          rw [hcp, ht] at ht'
          rw [Option.some.inj ht']
          rfl
      refine Again.dht fuel _ _ _ _ hp { R with acLen := by simp [R.acLen], ac := fun i => ?_ }
      dsimp only
      rw [List.getElem?_set, List.getElem?_set, R.acLen]
      by_cases e1 : (info &&& 15).toNat = i
      · rw [if_pos e1, if_pos e1]
        left
        split
        · rw [e]; rfl
        · rfl
      · rw [if_neg e1, if_neg e1]; exact R.ac i

theorem Again.dqt {c : Decoder} : ∀ (fuel len : Nat) (d d' : Decoder) (rd : List UInt8),
    Again c d d' →
    Twice (parseDqtLoop fuel len) (parseDqtLoop fuel len) ⟨d, rd⟩ ⟨d', rd⟩
      fun _ _ t t' => t'.rd = t.rd ∧ Again c t.dec t'.dec
  | 0, len, d, d', rd, R => by
    unfold parseDqtLoop
    exact .ite Iff.rfl (fun _ => .diverge) fun _ => .pure ⟨rfl, R⟩
  | fuel + 1, len, d, d', rd, R => by
    unfold parseDqtLoop
    refine .ite Iff.rfl (fun _ => ?_) fun _ => .pure ⟨rfl, R⟩
    refine .bind (.readByte fun info r _ => ?_)
    dsimp only
    refine .ite Iff.rfl (fun _ => .throw) fun _ => ?_
    refine .ite Iff.rfl (fun _ => ?_) fun _ => .throw
    refine .bind (.readExact fun vals r _ => ?_)
    refine .ite Iff.rfl (fun _ => .throw) fun _ => ?_
    refine .bind (.modDec ?_)
    refine Again.dqt fuel _ _ _ _ { R with qtLen := by simp [R.qtLen], qt := fun i => ?_ }
    dsimp only
    rw [List.getElem?_set, List.getElem?_set, R.qtLen]
    by_cases e : (info &&& 15).toNat = i
    · rw [if_pos e, if_pos e]; exact Or.inl rfl
    · rw [if_neg e, if_neg e]; exact R.qt i

/-! ### Frames -/

theorem Twice.readComponents {d d' : Decoder} : ∀ (n : Nat) (rd : List UInt8),
    Twice (readComponents n) (readComponents n) ⟨d, rd⟩ ⟨d', rd⟩
      fun a a' t t' => a' = a ∧ ∃ r, t = ⟨d, r⟩ ∧ t' = ⟨d', r⟩
  | 0, rd => .pure ⟨rfl, rd, rfl, rfl⟩
  | n + 1, rd => by
    unfold Zune.readComponents
    refine .bind (.readExact fun v r hv => ?_)
    obtain ⟨a, b, c, rfl⟩ : ∃ a b c, v = [a, b, c] := by
      match v, hv with
      | [a, b, c], _ => exact ⟨a, b, c, rfl⟩
    refine .bind (.ofOut fun k _ => ?_)
    refine .bind ((Twice.readComponents n r).mono ?_)
    rintro x _ _ _ ⟨rfl, r', rfl, rfl⟩
    exact .pure ⟨rfl, r', rfl, rfl⟩

theorem Twice.setup : ∀ (cs : List Component) (d d' : Decoder) (rd : List UInt8),
    (∀ (i : Nat) (q : List Nat), d.qtTables[i]? = some (some q) → d'.qtTables[i]? = some (some q)) →
    d'.qtTables.length = d.qtTables.length → d'.info.width = d.info.width →
    (∀ c ∈ cs, c.widthStride = c.horizontalSample) →
    Twice (setupComponents cs) (setupComponents cs) ⟨d, rd⟩ ⟨d', rd⟩
      fun l l' _ _ => (∀ c ∈ cs, c.horizontalSample ≤ d'.hMax) →
        l' = l.map (restride ((d.info.width.toNat + d'.hMax * 8 - 1) / (d'.hMax * 8)))
  | [], d, d', rd, _, _, _, _ => .pure fun _ => rfl
  | c :: cs, d, d', rd, hq, hl, hw, hs => by
    unfold setupComponents
    refine .bind (.modDec ?_)
    refine .bind (.getDec ?_)
    refine .bind (.idx fun o ho => ?_)
    dsimp only at ho
    cases o with
    | none =>
      have hlt : c.quantTableNumber < d'.qtTables.length := by
        rw [hl]
        by_contra hn
        rw [List.getElem?_eq_none (by omega)] at ho
        cases ho
      exact ⟨_, List.getElem?_eq_getElem hlt, .bind (.okOr fun a ha => by cases ha)⟩
    | some q =>
      refine ⟨some q, hq _ _ ho, ?_⟩
      refine .bind (.okOr fun a ha => ⟨a, ha, ?_⟩)
      cases ha
      refine .bind ((Twice.setup cs _ _ _ (by exact hq) (by exact hl)
        (by exact hw)
        fun c' h' => hs c' (by simp [h'])).mono ?_)
      intro l l' t t' h
      refine .pure fun hm => ?_
      have hc := hm c (by simp)
      dsimp only at h ⊢
      have e1 : max d'.hMax c.horizontalSample = d'.hMax := Nat.max_eq_left hc
      rw [e1] at h
      rw [h fun c' h' => hm c' (by simp [h']), List.map_cons, e1, hw, hs c (by simp)]
      rfl

theorem maxH_le {a : Nat} : ∀ {cs : List Component}, (∀ c ∈ cs, c.horizontalSample ≤ a) →
    maxH a cs = a
  | [], _ => rfl
  | c :: cs, h => by
    unfold maxH
    rw [List.foldl_cons, Nat.max_eq_left (h c (by simp))]
    exact maxH_le fun c' h' => h c' (by simp [h'])
theorem maxV_le {a : Nat} : ∀ {cs : List Component}, (∀ c ∈ cs, c.verticalSample ≤ a) →
    maxV a cs = a
  | [], _ => rfl
  | c :: cs, h => by
    unfold maxV
    rw [List.foldl_cons, Nat.max_eq_left (h c (by simp))]
    exact maxV_le fun c' h' => h c' (by simp [h'])

theorem Again.frame_start {c d d' : Decoder} (R : Again c d d') {w h : UInt16} {n : UInt8}
    {sof : SofMarker} {hm vm : Nat} {l l' : List Component}
    (U : Until (frameDims (sofStart d sof h w n) hm vm) c) (D : Dims c)
    (hl : l' = l.map (restride ((w.toNat + c.hMax * 8 - 1) / (c.hMax * 8)))) :
    Again c
      { frameDims (sofStart d sof h w n) hm vm with
        qtTables := [none, none, none, none], components := l }
      { frameDims (sofStart d' sof h w n) c.hMax c.vMax with
        qtTables := [none, none, none, none], components := l' } := by
  have hx : d.info.xDensity = c.info.xDensity := U.xd
  have hy : d.info.yDensity = c.info.yDensity := U.yd
  unfold frameDims sofStart
  dsimp only
  constructor
  · exact R.cpu
  · exact R.idct
  · exact R.color
  · exact R.sub
  · exact R.xd
  · exact R.yd
  · exact R.prog
  · rfl
  · rfl
  · dsimp only
    split
    · rename_i hm
      exact (D.inter hm).symm
    · exact R.inter
  · dsimp only
    split
    · left
      rw [R.same]; rfl
    · exact R.opts
  · dsimp only
    split
    · rw [R.same]; rfl
    · exact R.same
  · dsimp only
    split
    · exact Or.inl rfl
    · exact R.input
  · exact R.restart
  · exact R.todo
  · exact R.scans
  · exact R.start
  · exact R.stop
  · exact R.high
  · exact R.low
  · exact R.zLen
  · exact R.z
  · exact R.dcLen
  · exact R.dc
  · exact R.acLen
  · exact R.ac
  · rfl
  · exact fun _ => Or.inl rfl
  · right
    refine ⟨?_, hl, rfl, rfl, rfl, rfl⟩
    dsimp only
    rw [R.xd, R.yd, hx, hy]

theorem Again.sof {c d d' : Decoder} {rd : List UInt8} (sof : SofMarker) (D : Dims c)
    (R : Again c d d') :
    Twice (parseStartOfFrame sof) (parseStartOfFrame sof) ⟨d, rd⟩ ⟨d', rd⟩
      fun _ _ t t' => Until t.dec c → t'.rd = t.rd ∧ Again c t.dec t'.dec := by
  unfold parseStartOfFrame
  refine .bind (.readU16 fun len r => ?_)
  refine .bind (.readByte fun p r _ => ?_)
  refine .ite Iff.rfl (fun _ => .throw) fun hp => ?_
  refine .bind (.modDec ?_)
  refine .bind (.readU16 fun h r => ?_)
  refine .bind (.modDec ?_)
  refine .bind (.readU16 fun w r => ?_)
  refine .bind (.modDec ?_)
  refine .bind (.getDec ?_)
  dsimp only
  have e1 : d'.options.getMaxWidth = d.options.getMaxWidth := by rw [R.same]; rfl
  have e2 : d'.options.getMaxHeight = d.options.getMaxHeight := by rw [R.same]; rfl
  refine .ite (by rw [e1]) (fun _ => .throw) fun _ => ?_
  refine .ite (by rw [e2]) (fun _ => .throw) fun _ => ?_
  refine .ite Iff.rfl (fun _ => .throw) fun _ => ?_
  refine .bind (.readByte fun n r _ => ?_)
  refine .ite Iff.rfl (fun _ => .throw) fun hn => ?_
  refine .ite Iff.rfl (fun _ => .throw) fun _ => ?_
  refine .bind (.modDec ?_)
  refine .bind (.modDec ?_)
  refine .bind (.also (wp_readComponents n.toNat _) ((Twice.readComponents n.toNat r).mono ?_))
  rintro _ cs _ _ ⟨rfl, r', rfl, rfl⟩ ⟨-, hlen, hfresh, -⟩
  refine .bind (.modDec ?_)
  have hp8 : p = 8 := by simpa using hp
  subst hp8
  have key : Twice (setupComponents cs >>= fun comps => modDec fun d =>
        { d with qtTables := [none, none, none, none], components := comps })
      (setupComponents cs >>= fun comps => modDec fun d =>
        { d with qtTables := [none, none, none, none], components := comps })
      ⟨sofStart d sof h w n, r'⟩ ⟨sofStart d' sof h w n, r'⟩
      fun _ _ t t' => Until t.dec c → t'.rd = t.rd ∧ Again c t.dec t'.dec := by
    have hpos : ∀ c ∈ cs, 1 ≤ c.horizontalSample ∧ 1 ≤ c.verticalSample := by
      intro c hc
      obtain ⟨k, _, hk⟩ := (hfresh c hc).1.h
      obtain ⟨k', _, hk'⟩ := (hfresh c hc).1.v
      exact ⟨by rw [hk]; exact Nat.one_le_two_pow, by rw [hk']; exact Nat.one_le_two_pow⟩
    have hne : cs ≠ [] := by
      rintro rfl
      simp at hlen
      exact hn (UInt8.toNat_inj.1 (by simpa using hlen.symm))
    refine .bind (.also (wp_setupComponents cs _ hpos (by simp))
      (.also' (wp_setupComponents cs _ hpos (by simp))
        ((Twice.setup cs (sofStart d sof h w n) (sofStart d' sof h w n) r' (fun i q hq => ?_)
          R.qtLen rfl
          (fun c hc => (hfresh c hc).2.1)).mono ?_)))
    · rcases R.qt i with hi | ⟨hi, -⟩
      · exact hi.trans hq
      · rw [show (sofStart d sof h w n).qtTables = d.qtTables from rfl, hi] at hq
        cases hq
    · rintro l l' ⟨t, rt⟩ ⟨t', rt'⟩ hl ⟨h1', h2', -⟩ ⟨h1, h2, -⟩
      dsimp only at h1 h2 h1' h2'
      subst h1 h1'
      refine .modDec fun U => ⟨rfl, ?_⟩
      rw [if_neg hne] at h2 h2'
      have U' : Until t c := ⟨U.h, U.v, U.prog, U.inter, U.xd, U.yd⟩
      rw [h2] at U'
      have hH : ∀ x ∈ cs, x.horizontalSample ≤ c.hMax :=
        fun x hx => Nat.le_trans (mem_le_maxH hx) U'.h
      have hV : ∀ x ∈ cs, x.verticalSample ≤ c.vMax :=
        fun x hx => Nat.le_trans (mem_le_maxV hx) U'.v
      have hl := hl (fun x hx => by
        show x.horizontalSample ≤ d'.hMax
        rw [R.h]; exact hH x hx)
      rw [show (sofStart d' sof h w n).hMax = c.hMax from R.h] at hl h2'
      rw [show (sofStart d' sof h w n).vMax = c.vMax from R.v, maxH_le hH, maxV_le hV] at h2'
      dsimp only
      rw [h2, h2']
      exact R.frame_start U' D hl
  convert key using 2
  · unfold sofStart
    by_cases h1 : n = 1
    · simp only [if_pos h1]
    · simp only [if_neg h1]
  · unfold sofStart
    by_cases h1 : n = 1
    · simp only [if_pos h1]
    · simp only [if_neg h1]

/-! ### Scan headers -/

theorem modify_map {α : Type} {f g : α → α} (h : ∀ a, g (f a) = f (g a)) (l : List α) (j : Nat) :
    (l.map f).modify j g = (l.modify j g).map f := by
  apply List.ext_getElem?
  intro i
  rw [List.getElem?_modify, List.getElem?_map, List.getElem?_map, List.getElem?_modify]
  cases l[i]? with
  | none => rfl
  | some a =>
    simp only [Option.map_some]
    by_cases e : j = i
    · simp [e, h]
    · simp [e]

theorem Twice.find {id : UInt8} {comps : List Component} {mx : Nat} {s s' : H} :
    ∀ (n j : Nat), Twice (findComponent id comps n j)
      (findComponent id (comps.map (restride mx)) n j) s s'
      fun a a' t t' => a' = a ∧ t = s ∧ t' = s'
  | 0, j => .pure ⟨rfl, rfl, rfl⟩
  | n + 1, j => by
    unfold findComponent
    refine .bind (.idx fun x hx => ⟨restride mx x, by rw [List.getElem?_map, hx]; rfl, ?_⟩)
    exact .ite Iff.rfl (fun _ => .pure ⟨rfl, rfl, rfl⟩) fun _ => Twice.find n (j + 1)

theorem Again.sosComps {c : Decoder} : ∀ (n i : Nat) (seen : List Bool) (d d' : Decoder)
    (rd : List UInt8), Again c d d' → d.info.components ≠ 0 →
    Twice (sosComponents n i seen) (sosComponents n i seen) ⟨d, rd⟩ ⟨d', rd⟩
      fun _ _ t t' => t'.rd = t.rd ∧ Again c t.dec t'.dec ∧ t.dec.info.components ≠ 0
  | 0, i, seen, d, d', rd, R, h0 => .pure ⟨rfl, R, h0⟩
  | n + 1, i, seen, d, d', rd, R, h0 => by
    obtain ⟨f1, f2, f3⟩ := R.frame.resolve_left h0
    unfold sosComponents
    refine .bind (.readByte fun id r _ => ?_)
    refine .bind (.getDec ?_)
    refine .ite (by rw [f2, List.length_map]) (fun _ => .throw) fun _ => ?_
    refine .bind (.idx fun b hb => ⟨b, hb, ?_⟩)
    refine .ite Iff.rfl (fun _ => .throw) fun _ => ?_
    refine .bind (.readByte fun y r _ => ?_)
    rw [f1, f2]
    refine .bind ((Twice.find _ _).mono ?_)
    rintro _ j _ _ ⟨rfl, rfl, rfl⟩
    refine .ite Iff.rfl (fun _ => .throw) fun _ => ?_
    refine .bind (.modDec ?_)
    refine Again.sosComps n (i + 1) _ _ _ _
      { R with zLen := by simp [R.zLen], z := fun k => ?_, frame := Or.inr ⟨f1, ?_, f3⟩ } h0
    · dsimp only
      rw [List.getElem?_set, List.getElem?_set, R.zLen]
      by_cases e : i = k
      · rw [if_pos e, if_pos e]; exact Or.inl rfl
      · rw [if_neg e, if_neg e]; exact R.z k
    · dsimp only
      rw [f2]
      exact modify_map (f := restride d'.mcuX) (g := fun c => { c with
        dcHuffTable := (y >>> 4).toNat, acHuffTable := (y &&& 0xF).toNat }) (fun _ => rfl) _ _

theorem Again.sos {c d d' : Decoder} {rd : List UInt8} (R : Again c d d') :
    Twice parseSos parseSos ⟨d, rd⟩ ⟨d', rd⟩
      fun _ _ t t' => t'.rd = t.rd ∧ Again c t.dec t'.dec ∧ t.dec.info.components ≠ 0 := by
  unfold parseSos
  refine .bind (.readU16 fun ls r => ?_)
  refine .bind (.readByte fun ns r _ => ?_)
  refine .bind (.modDec ?_)
  refine .ite Iff.rfl (fun _ => .throw) fun _ => ?_
  refine .ite Iff.rfl (fun _ => .throw) fun _ => ?_
  refine .bind (.getDec ?_)
  dsimp only
  by_cases h0 : d.info.components = 0
  · rw [if_pos h0]; exact .throw
  have f := (R.frame.resolve_left h0).1
  refine .ite (by rw [f]) (fun _ => .throw) fun _ => ?_
  refine .bind ((Again.sosComps _ _ _ _ _ _
    (show Again c { d with numScans := ns.toNat } { d' with numScans := ns.toNat } from
      { R with scans := Or.inl rfl }) h0).mono ?_)
  rintro _ _ ⟨t, rt⟩ ⟨t', rt'⟩ ⟨h1, R, h2⟩
  dsimp only at h1 R h2
  subst h1
  refine .bind (.readByte fun ss r _ => ?_)
  refine .bind (.modDec ?_)
  refine .bind (.readByte fun se r _ => ?_)
  refine .bind (.modDec ?_)
  refine .bind (.readByte fun ba r _ => ?_)
  refine .bind (.modDec ?_)
  refine .ite Iff.rfl (fun _ => .throw) fun _ => ?_
  refine .bind (.modDec ?_)
  refine .failIf fun _ => ⟨rfl, ?_, h2⟩
  exact { R with start := Or.inl rfl, stop := Or.inl rfl, high := Or.inl rfl, low := Or.inl rfl }

/-! ### The marker loop -/

theorem again_marker {c d d' : Decoder} {rd : List UInt8} {mk : Marker} {t : H} (D : Dims c)
    (R : Again c d d') (h : parseMarkerInner mk ⟨d, rd⟩ = (.ok (), t)) (U : Until t.dec c) :
    ∃ t', parseMarkerInner mk ⟨d', rd⟩ = (.ok (), t') ∧ t'.rd = t.rd ∧ Again c t.dec t'.dec ∧
      (mk = .sos → t.dec.info.components ≠ 0) := by
  have E := (M.wp_ok (wp_parseMarkerInner_raw (pn := True) (dv := True) _ (by simp) (by simp)) h).2.2
  have hp : d.isProgressive = true → c.isProgressive = true :=
    ((effect_until E).1.trans U).prog
  have use : ∀ {m : M H Unit}, Twice m m ⟨d, rd⟩ ⟨d', rd⟩ (fun _ _ t t' =>
      Until t.dec c → t'.rd = t.rd ∧ Again c t.dec t'.dec ∧ True) → m ⟨d, rd⟩ = (.ok (), t) →
      ∃ t', m ⟨d', rd⟩ = (.ok (), t') ∧ t'.rd = t.rd ∧ Again c t.dec t'.dec ∧ True := by
    intro m hm he
    obtain ⟨_, t', h1, h2⟩ := hm _ _ he
    exact ⟨t', h1, h2 U⟩
  have skip : Twice skipSegment skipSegment ⟨d, rd⟩ ⟨d', rd⟩ (fun _ _ t t' =>
      Until t.dec c → t'.rd = t.rd ∧ Again c t.dec t'.dec ∧ True) :=
    .skipSegment fun r _ => ⟨rfl, R, trivial⟩
  have fin : ∀ {m : M H Unit}, mk ≠ .sos → (∃ t', m ⟨d', rd⟩ = (.ok (), t') ∧ t'.rd = t.rd ∧
      Again c t.dec t'.dec ∧ True) → ∃ t', m ⟨d', rd⟩ = (.ok (), t') ∧ t'.rd = t.rd ∧
      Again c t.dec t'.dec ∧ (mk = .sos → t.dec.info.components ≠ 0) := by
    rintro m hm ⟨t', h1, h2, h3, -⟩
    exact ⟨t', h1, h2, h3, fun e => absurd e hm⟩
  unfold parseMarkerInner at h ⊢
  split at h
  · refine fin (by simp) (use ((Again.sof _ D R).mono ?_) h)
    exact fun _ _ _ _ k U => ⟨(k U).1, (k U).2, trivial⟩
  · refine fin (by simp) (use (.bind (.modDec ((Again.sof _ D ?_).mono ?_))) h)
    · have : c.isProgressive = true := by
        obtain ⟨x, y, h1, h2, w1, w2, n, cs, cs', k⟩ := E
        exact (((sof_until k).1).trans U).prog rfl
      exact { R with prog := this.symm }
    · exact fun _ _ _ _ k U => ⟨(k U).1, (k U).2, trivial⟩
  · simp at h
  · refine fin (by simp) (use ?_ h)
    unfold parseDqt
    refine .bind (.readU16 fun v r => ?_)
    refine .ite Iff.rfl (fun _ => .throw) fun _ => ?_
    exact (Again.dqt _ _ _ _ _ R).mono fun _ _ _ _ k _ => ⟨k.1, k.2, trivial⟩
  · refine fin (by simp) (use ?_ h)
    unfold parseHuffman
    refine .bind (.readU16 fun v r => ?_)
    refine .ite Iff.rfl (fun _ => .throw) fun _ => ?_
    refine .bind ((Again.dht _ _ _ _ _ hp R).mono ?_)
    rintro a _ t t' ⟨rfl, h1, h2⟩
    exact .failIf fun _ _ => ⟨h1, h2, trivial⟩
  · obtain ⟨_, t', h1, h2, h3, h4⟩ := R.sos () t h
    exact ⟨t', h1, h2, h3, fun _ => h4⟩
  · simp at h
  · simp at h
  · simp at h
  · refine fin (by simp) (use ?_ h)
    refine .bind (.readU16 fun v r => ?_)
    refine .ite Iff.rfl (fun _ => .throw) fun _ => ?_
    refine .bind (.readU16 fun v r => ?_)
    refine .modDec fun _ => ⟨rfl, ?_, trivial⟩
    exact { R with restart := Or.inl rfl, todo := Or.inl rfl }
  all_goals exact fin (by simp) (use skip h)

theorem again_step {c d d' : Decoder} {rd : List UInt8} {last m : UInt8} {count : Nat}
    {o : Option Nat} {t : H} (D : Dims c)
    (R : Again c d d') (h : headerStep last count m ⟨d, rd⟩ = (.ok o, t)) (U : Until t.dec c) :
    ∃ t', headerStep last count m ⟨d', rd⟩ = (.ok o, t') ∧ t'.rd = t.rd ∧ Again c t.dec t'.dec ∧
      (o = none → t.dec.info.components ≠ 0) := by
  unfold headerStep at h ⊢
  by_cases hl : last = 0xFF
  · rw [if_pos hl] at h ⊢
    cases hm : Marker.fromU8 m with
    | some mk =>
      rw [hm] at h
      dsimp only at h ⊢
      obtain ⟨_, s1, h1, h2⟩ := M.bind_ok_inv h
      by_cases hk : mk = .sos
      · rw [if_pos hk] at h2 ⊢
        simp at h2
        obtain ⟨rfl, rfl⟩ := h2
        obtain ⟨t', k1, k2, k3, k4⟩ := again_marker D R h1 U
        exact ⟨t', by rw [M.bind_ok k1]; rfl, k2, k3, fun _ => k4 hk⟩
      · rw [if_neg hk] at h2 ⊢
        simp at h2
        obtain ⟨rfl, rfl⟩ := h2
        obtain ⟨t', k1, k2, k3, k4⟩ := again_marker D R h1 U
        exact ⟨t', by rw [M.bind_ok k1]; rfl, k2, k3, by simp⟩
    | none =>
      rw [hm] at h
      dsimp only at h ⊢
      obtain ⟨_, s1, h1, h2⟩ := M.bind_ok_inv h
      simp at h2
      obtain ⟨rfl, rfl⟩ := h2
      obtain ⟨_, t', k1, k2, k3⟩ := Twice.skipSegment (d := d) (d' := d') (rd := rd)
        (Q := fun _ _ t t' => t'.rd = t.rd ∧ Again c t.dec t'.dec) (fun r => ⟨rfl, R⟩) _ _ h1
      exact ⟨t', by rw [M.bind_ok k1]; rfl, k2, k3, by simp⟩
  · rw [if_neg hl] at h ⊢
    simp at h
    obtain ⟨rfl, rfl⟩ := h
    exact ⟨⟨d', rd⟩, rfl, rfl, R, by simp⟩

theorem again_loop {c : Decoder} {rest : List UInt8} (D : Dims c) :
    ∀ (fuel : Nat) (last : UInt8) (count : Nat) (d d' : Decoder) (rd : List UInt8),
    Again c d d' → headerLoop fuel last count ⟨d, rd⟩ = (.ok (), ⟨c, rest⟩) →
    ∃ c', headerLoop fuel last count ⟨d', rd⟩ = (.ok (), ⟨c', rest⟩) ∧ Again c c c' ∧
      c.info.components ≠ 0
  | 0, _, _, _, _, _, _, h => by simp [headerLoop] at h
  | fuel + 1, last, count, d, d', rd, R, h => by
    unfold headerLoop at h ⊢
    obtain ⟨m, s1, h1, h2⟩ := M.bind_ok_inv h
    cases rd with
    | nil => simp [readByte] at h1
    | cons b r =>
      simp [readByte] at h1
      obtain ⟨rfl, rfl⟩ := h1
      rw [M.bind_ok (show readByte ⟨d', b :: r⟩ = (.ok b, ⟨d', r⟩) from rfl)]
      obtain ⟨o, ⟨d2, r2⟩, h3, h4⟩ := M.bind_ok_inv h2
      cases o with
      | none =>
        simp at h4
        obtain ⟨rfl, rfl⟩ := h4
        obtain ⟨⟨t', rt⟩, k1, k2, k3, k4⟩ := again_step D R h3 (.refl _)
        dsimp only at k2 k3 k4
        subst k2
        exact ⟨t', by rw [M.bind_ok k1]; rfl, k3, k4 rfl⟩
      | some n =>
        dsimp only at h4
        rw [M.bind_ok (show getDec ⟨d2, r2⟩ = (.ok d2, ⟨d2, r2⟩) from rfl)] at h4
        by_cases hs : d2.options.getStrictMode = true ∧ n + 1 > 3
        · rw [if_pos hs] at h4; simp at h4
        rw [if_neg hs] at h4
        obtain ⟨⟨t', rt⟩, k1, k2, k3, -⟩ := again_step D R h3 (headerLoop_until _ _ _ _ _ h4).1
        dsimp only at k2 k3
        subst k2
        obtain ⟨c', k5, k6⟩ := again_loop D fuel _ _ _ _ _ k3 h4
        refine ⟨c', ?_, k6⟩
        rw [M.bind_ok k1]
        dsimp only
        rw [M.bind_ok (show getDec ⟨t', rt⟩ = (.ok t', ⟨t', rt⟩) from rfl), if_neg, k5]
        rw [k3.same]
        exact hs
end Zune
