import Verif.Lemmas.Header
import Mathlib.Data.List.Forall2
/-! Frame headers and scan headers. -/

namespace Zune
open M (wp wp_bind wp_mono wp_pure wp_throw wp_idx wp_idx_of wp_okOr wp_ofOut wp_failIf wp_ite_of
  wp_diverge wp_panic)

namespace Spec

/-- The three bytes of a component in a frame header (T.81 B.2.2): identifier, sampling factors,
quantization table. -/
def componentBytes (id : UInt8) (h v tq : Nat) : List UInt8 :=
  [id, UInt8.ofNat (16 * h + v), UInt8.ofNat tq]

/-- A legal component: identifier 1 to 3, sampling factors that are powers of two and fit their
four bits, one of four tables. -/
structure ComponentOk (c : Component) : Prop where
  id : (c.id = 1 ∧ c.componentId = .y) ∨ (c.id = 2 ∧ c.componentId = .cb) ∨
    (c.id = 3 ∧ c.componentId = .cr)
  h : ∃ k, k ≤ 3 ∧ c.horizontalSample = 2 ^ k
  v : ∃ k, k ≤ 3 ∧ c.verticalSample = 2 ^ k
  tq : c.quantTableNumber < 4

end Spec
open Spec

section
variable {pn dv : Prop} {s : H}

theorem isPow2_spec {n : Nat} (h : isPow2 n = true) : ∃ k, k ≤ 3 ∧ n = 2 ^ k := by
  simp [isPow2] at h
  rcases h with ((rfl | rfl) | rfl) | rfl
  · exact ⟨0, by omega, rfl⟩
  · exact ⟨1, by omega, rfl⟩
  · exact ⟨2, by omega, rfl⟩
  · exact ⟨3, by omega, rfl⟩

theorem u8_nibbles (b : UInt8) : UInt8.ofNat (16 * (b >>> 4).toNat + (b &&& 0x0f).toNat) = b := by
  apply UInt8.toNat_inj.1
  have hb := b.toNat_lt
  simp only [UInt8.toNat_shiftRight, UInt8.toNat_and, UInt8.toNat_ofNat']
  rw [show (4 : UInt8).toNat % 8 = 4 from rfl, show (0x0f : UInt8).toNat = 2 ^ 4 - 1 from rfl,
    Nat.and_two_pow_sub_one_eq_mod, Nat.shiftRight_eq_div_pow]
  omega

/-- A component that was read. -/
theorem component_from {a b c : UInt8} {comp : Component} (h : Component.from a b c = .ok comp) :
    ComponentOk comp ∧
      [a, b, c] = componentBytes comp.id comp.horizontalSample comp.verticalSample
        comp.quantTableNumber ∧
      comp.widthStride = comp.horizontalSample ∧ comp.dcHuffTable = 0 ∧ comp.acHuffTable = 0 ∧
      comp.dcPred = 0 ∧ comp.upSampler = .noOp := by
  unfold Component.from at h
  dsimp only at h
  have key : ∀ cid : ComponentID,
      (if c.toNat ≥ MAX_COMPONENTS then (.err .format : Out Component)
        else if (!isPow2 (b >>> 4).toNat) = true then .err .format
        else if (!isPow2 (b &&& 0x0f).toNat) = true then .err .format
        else .ok { componentId := cid, verticalSample := (b &&& 0x0f).toNat
                   horizontalSample := (b >>> 4).toNat
                   quantTableNumber := c.toNat, widthStride := (b >>> 4).toNat, id := a }) =
        .ok comp → c.toNat < 4 ∧ isPow2 (b >>> 4).toNat = true ∧ isPow2 (b &&& 0x0f).toNat = true ∧
          comp = { componentId := cid, verticalSample := (b &&& 0x0f).toNat
                   horizontalSample := (b >>> 4).toNat
                   quantTableNumber := c.toNat, widthStride := (b >>> 4).toNat, id := a } := by
    intro cid h
    by_cases h1 : c.toNat ≥ MAX_COMPONENTS
    · rw [if_pos h1] at h; cases h
    · rw [if_neg h1] at h
      cases h2 : isPow2 (b >>> 4).toNat
      · rw [if_pos (by simp only [h2]; rfl)] at h; cases h
      · rw [if_neg (by simp only [h2]; decide)] at h
        cases h3 : isPow2 (b &&& 0x0f).toNat
        · rw [if_pos (by simp only [h3]; rfl)] at h; cases h
        · rw [if_neg (by simp only [h3]; decide)] at h
          simp only [Out.ok.injEq] at h
          exact ⟨by unfold MAX_COMPONENTS at h1; omega, rfl, rfl, h.symm⟩
  have fin : ∀ cid : ComponentID,
      ((a = 1 ∧ cid = .y) ∨ (a = 2 ∧ cid = .cb) ∨ (a = 3 ∧ cid = .cr)) →
      (c.toNat < 4 ∧ isPow2 (b >>> 4).toNat = true ∧ isPow2 (b &&& 0x0f).toNat = true ∧
          comp = { componentId := cid, verticalSample := (b &&& 0x0f).toNat
                   horizontalSample := (b >>> 4).toNat
                   quantTableNumber := c.toNat, widthStride := (b >>> 4).toNat, id := a }) →
      ComponentOk comp ∧
      [a, b, c] = componentBytes comp.id comp.horizontalSample comp.verticalSample
        comp.quantTableNumber ∧
      comp.widthStride = comp.horizontalSample ∧ comp.dcHuffTable = 0 ∧ comp.acHuffTable = 0 ∧
      comp.dcPred = 0 ∧ comp.upSampler = .noOp := by
    rintro cid hid ⟨h1, h2, h3, rfl⟩
    refine ⟨⟨hid, isPow2_spec h2, isPow2_spec h3, h1⟩, ?_, rfl, rfl, rfl, rfl, rfl⟩
    unfold componentBytes
    rw [u8_nibbles]
    simp
  by_cases h1 : a = 1
  · rw [if_pos h1] at h
    exact fin .y (Or.inl ⟨h1, rfl⟩) (key _ h)
  · rw [if_neg h1] at h
    by_cases h2 : a = 2
    · rw [if_pos h2] at h
      exact fin .cb (Or.inr (Or.inl ⟨h2, rfl⟩)) (key _ h)
    · rw [if_neg h2] at h
      by_cases h3 : a = 3
      · rw [if_pos h3] at h
        exact fin .cr (Or.inr (Or.inr ⟨h3, rfl⟩)) (key _ h)
      · rw [if_neg h3] at h; cases h

theorem component_from_returns (a b c : UInt8) :
    (∃ k, Component.from a b c = .ok k) ∨ Component.from a b c = .err .format := by
  unfold Component.from
  dsimp only
  split <;> (try split) <;> (try split) <;> (try split) <;> (try split) <;> (try split) <;> simp

/-- The bytes of a component. -/
def Component.bytes (c : Component) : List UInt8 :=
  componentBytes c.id c.horizontalSample c.verticalSample c.quantTableNumber

/-- A component as it was read, before the tables are attached. -/
def FreshComponent (c : Component) : Prop :=
  ComponentOk c ∧ c.widthStride = c.horizontalSample ∧ c.dcHuffTable = 0 ∧ c.acHuffTable = 0 ∧
    c.dcPred = 0 ∧ c.upSampler = .noOp

theorem wp_readComponents : ∀ (n : Nat) (s : H),
    wp pn dv (readComponents n) (fun cs s' => s'.dec = s.dec ∧ cs.length = n ∧
      (∀ c ∈ cs, FreshComponent c) ∧ s.rd = cs.flatMap Component.bytes ++ s'.rd)
      (fun _ s' => s'.dec = s.dec) s
  | 0, s => ⟨rfl, rfl, by simp, rfl⟩
  | n + 1, s => by
    unfold readComponents
    rw [wp_bind]
    refine wp_readExact (fun t r hr ht => ?_) (fun _ => rfl)
    obtain ⟨a, b, c, rfl⟩ : ∃ a b c, t = [a, b, c] := by
      match t, ht with
      | [a, b, c], _ => exact ⟨a, b, c, rfl⟩
    dsimp only
    rw [wp_bind, wp_ofOut]
    refine ⟨fun k hk => ?_, fun _ _ => rfl, fun p hp => ?_, fun hp => ?_⟩
    · rw [wp_bind]
      refine wp_mono (wp_readComponents n _) ?_ (fun _ _ h => h)
      rintro cs s' ⟨h1, h2, h3, h4⟩
      obtain ⟨k1, k2, k3, k4, k5, k6, k7⟩ := component_from hk
      refine ⟨h1, by simp [h2], ?_, ?_⟩
      · intro c' hc'
        rcases List.mem_cons.1 hc' with rfl | hc'
        · exact ⟨k1, k3, k4, k5, k6, k7⟩
        · exact h3 _ hc'
      · dsimp only at h4
        rw [hr, h4, k2, List.flatMap_cons]
        simp [Component.bytes]
    · rcases component_from_returns a b c with ⟨k, e⟩ | e <;> rw [e] at hp <;> cases hp
    · rcases component_from_returns a b c with ⟨k, e⟩ | e <;> rw [e] at hp <;> cases hp

/-- Running maxima of the sampling factors. -/
def maxH (a : Nat) (cs : List Component) : Nat := cs.foldl (fun m c => max m c.horizontalSample) a
def maxV (a : Nat) (cs : List Component) : Nat := cs.foldl (fun m c => max m c.verticalSample) a

/-- The decoder after the frame header with the given running maxima. -/
def frameDims (d : Decoder) (h v : Nat) : Decoder :=
  { d with
    hMax := h, vMax := v, mcuWidth := h * 8, mcuHeight := v * 8
    mcuX := (d.info.width.toNat + h * 8 - 1) / (h * 8)
    mcuY := (d.info.height.toNat + v * 8 - 1) / (v * 8)
    interleaved := if h ≠ 1 ∨ v ≠ 1 then true else d.interleaved }

/-- What `setupComponents` does to each component. -/
inductive Setup (d : Decoder) : Nat → Nat → List Component → List Component → Prop
  | nil {h v} : Setup d h v [] []
  | cons {h v c cs c' cs'} {qt : List Nat} :
      d.qtTables[c.quantTableNumber]? = some (some qt) →
      c' = { c with
        quantTable := qt
        widthStride := c.widthStride *
          (((d.info.width.toNat + max h c.horizontalSample * 8 - 1) /
            (max h c.horizontalSample * 8)) * 8) } →
      Setup d (max h c.horizontalSample) (max v c.verticalSample) cs cs' →
      Setup d h v (c :: cs) (c' :: cs')

theorem Setup.length {d h v cs cs'} (hs : Setup d h v cs cs') : cs'.length = cs.length := by
  induction hs with
  | nil => rfl
  | cons _ _ _ ih => simp [ih]

theorem Setup.mem {d h v cs cs'} (hs : Setup d h v cs cs') {c' : Component} (hc : c' ∈ cs') :
    ∃ c ∈ cs, c' = { c with quantTable := c'.quantTable, widthStride := c'.widthStride } ∧
      d.qtTables[c'.quantTableNumber]? = some (some c'.quantTable) := by
  induction hs with
  | nil => simp at hc
  | @cons h v c cs c1 cs1 qt hq he hr ih =>
    rcases List.mem_cons.1 hc with rfl | hc
    · exact ⟨c, by simp, by rw [he], by rw [he]; exact hq⟩
    · obtain ⟨c2, h2, h3⟩ := ih hc
      exact ⟨c2, by simp [h2], h3⟩

theorem Setup.bytes {d h v cs cs'} (hs : Setup d h v cs cs') :
    cs'.flatMap Component.bytes = cs.flatMap Component.bytes := by
  induction hs with
  | nil => rfl
  | cons _ he _ ih => rw [List.flatMap_cons, List.flatMap_cons, ih, he]; rfl

theorem Setup.maxes {d h v cs cs'} (hs : Setup d h v cs cs') (a b : Nat) :
    maxH a cs' = maxH a cs ∧ maxV b cs' = maxV b cs := by
  induction hs generalizing a b with
  | nil => exact ⟨rfl, rfl⟩
  | cons _ he _ ih =>
    subst he
    exact ih _ _

theorem le_maxH (a : Nat) (cs : List Component) : a ≤ maxH a cs := by
  induction cs generalizing a with
  | nil => exact Nat.le_refl _
  | cons c cs ih =>
    refine Nat.le_trans (Nat.le_max_left a c.horizontalSample) (ih _)
theorem le_maxV (a : Nat) (cs : List Component) : a ≤ maxV a cs := by
  induction cs generalizing a with
  | nil => exact Nat.le_refl _
  | cons c cs ih =>
    refine Nat.le_trans (Nat.le_max_left a c.verticalSample) (ih _)

theorem frameDims_twice (d : Decoder) {h v h' v' : Nat} (h1 : 1 ≤ h) (h2 : 1 ≤ v) (h3 : h ≤ h')
    (h4 : v ≤ v') : frameDims (frameDims d h v) h' v' = frameDims d h' v' := by
  unfold frameDims
  dsimp only
  congr 1
  by_cases e : h' ≠ 1 ∨ v' ≠ 1
  · rw [if_pos e, if_pos e]
  · rw [if_neg e, if_neg e, if_neg (by omega)]

theorem wp_setupComponents : ∀ (cs : List Component) (s : H),
    (∀ c ∈ cs, 1 ≤ c.horizontalSample ∧ 1 ≤ c.verticalSample) →
    (¬ pn → ∀ c ∈ cs, c.quantTableNumber < s.dec.qtTables.length) →
    wp pn dv (setupComponents cs) (fun cs' s' => s'.rd = s.rd ∧
      (s'.dec = if cs = [] then s.dec
        else frameDims s.dec (maxH s.dec.hMax cs) (maxV s.dec.vMax cs)) ∧
      Setup s.dec s.dec.hMax s.dec.vMax cs cs')
      (fun _ _ => True) s
  | [], s, _, _ => ⟨rfl, rfl, .nil⟩
  | c :: cs, s, hc, hq => by
    obtain ⟨hc1, hc2⟩ := hc c (by simp)
    unfold setupComponents
    rw [wp_bind, wp_modDec, wp_bind, wp_getDec, wp_bind, wp_idx]
    have hd : ∀ D, D = frameDims s.dec (max s.dec.hMax c.horizontalSample)
        (max s.dec.vMax c.verticalSample) →
        ((∃ a, D.qtTables[c.quantTableNumber]? = some a ∧
          wp pn dv (do
            let qt ← M.okOr a .dqt
            let rest ← setupComponents cs
            pure ({ c with quantTable := qt, widthStride := c.widthStride * (D.mcuX * 8) } :: rest))
          (fun cs' s' => s'.rd = s.rd ∧
            (s'.dec = if c :: cs = [] then s.dec
              else frameDims s.dec (maxH s.dec.hMax (c :: cs)) (maxV s.dec.vMax (c :: cs))) ∧
            Setup s.dec s.dec.hMax s.dec.vMax (c :: cs) cs')
          (fun _ _ => True) ⟨D, s.rd⟩) ∨
        (D.qtTables[c.quantTableNumber]? = none ∧ pn)) := by
      intro D hD
      have e1 : D.qtTables = s.dec.qtTables := by rw [hD]; rfl
      have e2 : D.hMax = max s.dec.hMax c.horizontalSample := by rw [hD]; rfl
      have e3 : D.vMax = max s.dec.vMax c.verticalSample := by rw [hD]; rfl
      have e4 : D.info = s.dec.info := by rw [hD]; rfl
      have e5 : D.mcuX = (s.dec.info.width.toNat + max s.dec.hMax c.horizontalSample * 8 - 1) /
          (max s.dec.hMax c.horizontalSample * 8) := by rw [hD]; rfl
      rw [e1]
      cases hqt : s.dec.qtTables[c.quantTableNumber]? with
      | none =>
        refine Or.inr ⟨rfl, ?_⟩
        by_contra hp
        have := hq hp c (by simp)
        rw [List.getElem?_eq_none_iff] at hqt
        omega
      | some a =>
        refine Or.inl ⟨a, rfl, ?_⟩
        rw [wp_bind, wp_okOr]
        refine ⟨fun qt hqa => ?_, fun _ => trivial⟩
        rw [wp_bind]
        have ih := wp_setupComponents cs ⟨D, s.rd⟩
          (fun c' h' => hc c' (by simp [h']))
          (fun hp c' h' => by dsimp only; rw [e1]; exact hq hp c' (by simp [h']))
        dsimp only at ih
        rw [e2, e3] at ih
        have m1 := le_maxH (max s.dec.hMax c.horizontalSample) cs
        have m2 := le_maxV (max s.dec.vMax c.verticalSample) cs
        refine wp_mono ih ?_ ?_
        · rintro cs' s' ⟨h1, h2, h3⟩
          refine ⟨h1, ?_, ?_⟩
          · rw [if_neg (by simp), h2]
            split
            · rename_i hnil
              subst hnil
              rw [hD]; rfl
            · rw [hD, frameDims_twice _ (by omega) (by omega) m1 m2]; rfl
          · refine .cons (qt := qt) (by rw [hqt, hqa]) (by rw [e5]) ?_
            clear h2 hD e5
            have h3' : ∀ h v cs cs', Setup D h v cs cs' → Setup s.dec h v cs cs' := by
              intro h v cs cs' hh
              induction hh with
              | nil => exact .nil
              | cons g1 g2 g3 g4 => exact .cons (by rw [← e1]; exact g1) (by rw [← e4]; exact g2) g4
            exact h3' _ _ _ _ h3
        · exact fun _ _ _ => trivial
    exact hd _ rfl

/-- The decoder when a frame header is accepted, before the components are set up. -/
def sofStart (d : Decoder) (sof : SofMarker) (h w : UInt16) (n : UInt8) : Decoder :=
  { d with
    info := { d.info with pixelDensity := 8, height := h, width := w, components := n, sof := sof }
    inputColorspace := if n = 1 then .grayscale else d.inputColorspace
    options := if n = 1 then d.options.setOutColorspace .grayscale else d.options }

/-- The decoder after a frame header was accepted. -/
def sofDecoder (d : Decoder) (sof : SofMarker) (h w : UInt16) (n : UInt8) (cs : List Component) :
    Decoder :=
  { frameDims (sofStart d sof h w n) (maxH d.hMax cs) (maxV d.vMax cs) with
    qtTables := [none, none, none, none], components := cs }

/-- A frame header that was accepted, and the decoder afterwards. -/
structure SofOk (sof : SofMarker) (d : Decoder) (rd : List UInt8) (d' : Decoder)
    (rd' : List UInt8) (x y h1 h2 w1 w2 n : UInt8) (cs cs' : List Component) : Prop where
  bytes : rd = x :: y :: 8 :: h1 :: h2 :: w1 :: w2 :: n :: (cs'.flatMap Component.bytes ++ rd')
  len : (be16 x y).toNat = 8 + 3 * n.toNat
  wpos : be16 w1 w2 ≠ 0
  hpos : be16 h1 h2 ≠ 0
  wmax : (be16 w1 w2).toNat ≤ d.options.getMaxWidth
  hmax : (be16 h1 h2).toNat ≤ d.options.getMaxHeight
  npos : n ≠ 0
  count : cs'.length = n.toNat
  fresh : ∀ c ∈ cs, FreshComponent c
  setup : Setup (sofStart d sof (be16 h1 h2) (be16 w1 w2) n) d.hMax d.vMax cs cs'
  dec : d' = sofDecoder d sof (be16 h1 h2) (be16 w1 w2) n cs'

theorem wp_parseStartOfFrame (sof : SofMarker) (hq : ¬ pn → s.dec.qtTables.length = 4) :
    wp pn dv (parseStartOfFrame sof) (fun _ s' => ∃ x y h1 h2 w1 w2 n cs cs',
      SofOk sof s.dec s.rd s'.dec s'.rd x y h1 h2 w1 w2 n cs cs') (fun _ _ => True) s := by
  unfold parseStartOfFrame
  rw [wp_bind]
  refine wp_readU16 (fun x y r0 hr0 => ?_) (fun _ => trivial)
  rw [wp_bind]
  refine wp_readByte (fun p r1 hr1 => ?_) (fun _ => trivial)
  refine wp_ite_of (fun _ => trivial) fun hp => ?_
  rw [wp_bind, wp_modDec, wp_bind]
  refine wp_readU16 (fun h1 h2 r2 hr2 => ?_) (fun _ => trivial)
  rw [wp_bind, wp_modDec, wp_bind]
  refine wp_readU16 (fun w1 w2 r3 hr3 => ?_) (fun _ => trivial)
  rw [wp_bind, wp_modDec, wp_bind, wp_getDec]
  refine wp_ite_of (fun _ => trivial) fun hw => ?_
  refine wp_ite_of (fun _ => trivial) fun hh => ?_
  refine wp_ite_of (fun _ => trivial) fun hz => ?_
  rw [wp_bind]
  refine wp_readByte (fun n r4 hr4 => ?_) (fun _ => trivial)
  refine wp_ite_of (fun _ => trivial) fun hn => ?_
  refine wp_ite_of (fun _ => trivial) fun hl => ?_
  dsimp only at hr0 hr1 hr2 hr3 hr4 hw hh
  rw [wp_bind, wp_modDec, wp_bind, wp_modDec, wp_bind]
  refine wp_mono (wp_readComponents _ _) ?_ (fun _ _ _ => trivial)
  rintro cs ⟨d5, r5⟩ ⟨e5, hlen, hfresh, hb5⟩
  rw [wp_bind, wp_modDec, wp_bind]
  dsimp only at e5 hb5 ⊢
  have hp8 : p = 8 := by simpa using hp
  subst hp8
  simp only [not_or] at hz
  have hd : ({ d5 with info := { d5.info with sof := sof } } : Decoder) =
      sofStart s.dec sof (be16 h1 h2) (be16 w1 w2) n := by
    rw [e5]
    unfold sofStart
    split <;> rfl
  rw [hd]
  refine wp_mono (wp_setupComponents cs _ ?_ ?_) ?_ (fun _ _ h => h)
  · intro c hc
    obtain ⟨k, _, hk⟩ := (hfresh c hc).1.h
    obtain ⟨k', _, hk'⟩ := (hfresh c hc).1.v
    exact ⟨by rw [hk]; exact Nat.one_le_two_pow, by rw [hk']; exact Nat.one_le_two_pow⟩
  · intro hnp c hc
    have := (hfresh c hc).1.tq
    have := hq hnp
    show _ < s.dec.qtTables.length
    omega
  · rintro cs' ⟨d6, r6⟩ ⟨e6, hd6, hset⟩
    rw [wp_modDec]
    dsimp only at e6 hd6 hset ⊢
    have hne : cs ≠ [] := by
      rintro rfl
      simp at hlen
      apply hn
      exact UInt8.toNat_inj.1 (by simpa using hlen.symm)
    refine ⟨x, y, h1, h2, w1, w2, n, cs, cs', ?_⟩
    constructor
    · rw [hr0, hr1, hr2, hr3, hr4, hb5, hset.bytes, e6]
    · rw [← be16] at hl; omega
    · exact hz.1
    · exact hz.2
    · rw [← be16] at hw; omega
    · rw [← be16] at hh; omega
    · exact hn
    · rw [hset.length, hlen]
    · exact hfresh
    · exact hset
    · rw [hd6, if_neg hne]
      obtain ⟨m1, m2⟩ := hset.maxes s.dec.hMax s.dec.vMax
      unfold sofDecoder
      rw [m1, m2]
      rfl

/-! ### Scan headers -/

/-- The search for a component. -/
theorem wp_findComponent {id : UInt8} {comps : List Component} : ∀ (n j : Nat) (s : H),
    (¬ pn → j + n ≤ comps.length) →
    wp pn dv (findComponent id comps n j) (fun k s' => s' = s ∧ j ≤ k ∧ k ≤ j + n ∧
      (k < j + n → ∃ c, comps[k]? = some c ∧ c.id = id) ∧
      ∀ i, j ≤ i → i < k → ∃ c, comps[i]? = some c ∧ c.id ≠ id) (fun _ _ => True) s
  | 0, j, s, _ => ⟨rfl, Nat.le_refl _, Nat.le_refl _, fun h => by omega, fun i h1 h2 => by omega⟩
  | n + 1, j, s, hc => by
    unfold findComponent
    rw [wp_bind, wp_idx]
    cases hj : comps[j]? with
    | none =>
      refine Or.inr ⟨rfl, ?_⟩
      by_contra hp
      have := hc hp
      rw [List.getElem?_eq_none_iff] at hj
      omega
    | some c =>
      refine Or.inl ⟨c, rfl, ?_⟩
      refine wp_ite_of (fun he => ?_) fun hne => ?_
      · exact ⟨rfl, by omega, by omega, fun _ => ⟨c, hj, he⟩, fun i h1 h2 => by omega⟩
      · refine wp_mono (wp_findComponent n (j + 1) s fun hp => ?_) ?_ (fun _ _ h => h)
        · have := hc hp; omega
        · rintro k s' ⟨h0, h1, h2, h3, h4⟩
          refine ⟨h0, by omega, by omega, fun h => h3 (by omega), fun i hi1 hi2 => ?_⟩
          by_cases e : i = j
          · subst e; exact ⟨c, hj, hne⟩
          · exact h4 i (by omega) hi2

/-- Change of the Huffman tables of a component by a scan header. -/
def SameButTables (c c' : Component) : Prop :=
  c' = { c with dcHuffTable := c'.dcHuffTable, acHuffTable := c'.acHuffTable }

/-- What the component loop of a scan header did. -/
structure SosComps (i0 : Nat) (seen : List Bool) (d d' : Decoder) (ps : List (UInt8 × UInt8)) :
    Prop where
  dec : d' = { d with components := d'.components, zOrder := d'.zOrder }
  zlen : d'.zOrder.length = d.zOrder.length
  comps : List.Forall₂ SameButTables d.components d'.components
  nodup : (ps.map (·.1)).Nodup
  unseen : ∀ p ∈ ps, seen[p.1.toNat]? = some false
  zkeep : ∀ i < i0, d'.zOrder[i]? = d.zOrder[i]?
  /-- the `i`-th entry names an existing component, gives it its tables and its place in the scan -/
  entry : ∀ (i : Nat) (p : UInt8 × UInt8), ps[i]? = some p →
    ∃ (j : Nat) (c : Component), d'.components[j]? = some c ∧ c.id = p.1 ∧
    j < d.info.components.toNat ∧
    c.dcHuffTable = (p.2 >>> 4).toNat ∧ c.acHuffTable = (p.2 &&& 0xF).toNat ∧
    (i0 + i < d.zOrder.length → d'.zOrder[i0 + i]? = some j)
  other : ∀ (j : Nat) (c c' : Component), d.components[j]? = some c → d'.components[j]? = some c' →
    (∀ p ∈ ps, p.1 ≠ c.id) → c' = c

theorem forall₂_same_refl (l : List Component) : List.Forall₂ SameButTables l l :=
  List.forall₂_same.2 fun _ _ => rfl

theorem SameButTables.trans {a b c : Component} (h1 : SameButTables a b) (h2 : SameButTables b c) :
    SameButTables a c := by
  unfold SameButTables at *
  rw [h2, h1]

theorem forall₂_same_trans {a b c : List Component} (h1 : List.Forall₂ SameButTables a b)
    (h2 : List.Forall₂ SameButTables b c) : List.Forall₂ SameButTables a c := by
  induction h1 generalizing c with
  | nil => cases h2; exact .nil
  | cons h _ ih =>
    cases h2 with
    | cons h' h2 => exact .cons (h.trans h') (ih h2)

theorem forall₂_modify {l : List Component} {j : Nat} {f : Component → Component}
    (hf : ∀ c, SameButTables c (f c)) : List.Forall₂ SameButTables l (l.modify j f) := by
  induction l generalizing j with
  | nil => cases j <;> exact .nil
  | cons a l ih =>
    cases j with
    | zero => exact .cons (hf a) (forall₂_same_refl l)
    | succ j => exact .cons rfl ih

theorem forall₂_get {l l' : List Component} (h : List.Forall₂ SameButTables l l') {j : Nat}
    {c : Component} (hj : l[j]? = some c) : ∃ c', l'[j]? = some c' ∧ SameButTables c c' := by
  induction h generalizing j with
  | nil => simp at hj
  | cons h0 _ ih =>
    cases j with
    | zero => simp at hj; subst hj; exact ⟨_, by simp, h0⟩
    | succ j => simp at hj; simpa using ih hj

theorem forall₂_get' {l l' : List Component} (h : List.Forall₂ SameButTables l l') {j : Nat}
    {c' : Component} (hj : l'[j]? = some c') : ∃ c, l[j]? = some c ∧ SameButTables c c' := by
  induction h generalizing j with
  | nil => simp at hj
  | cons h0 _ ih =>
    cases j with
    | zero => simp at hj; subst hj; exact ⟨_, by simp, h0⟩
    | succ j => simp at hj; simpa using ih hj

theorem wp_sosComponents : ∀ (n i : Nat) (seen : List Bool) (s : H), seen.length = 4 →
    (¬ pn → s.dec.components.length ≤ 3 ∧ s.dec.info.components.toNat ≤ s.dec.components.length) →
    wp pn dv (sosComponents n i seen) (fun _ s' => ∃ ps : List (UInt8 × UInt8), ps.length = n ∧
      s.rd = ps.flatMap (fun p => [p.1, p.2]) ++ s'.rd ∧ SosComps i seen s.dec s'.dec ps)
      (fun _ _ => True) s
  | 0, i, seen, s, _, _ => ⟨[], rfl, rfl, ⟨rfl, rfl, forall₂_same_refl _, by simp, by simp,
      fun _ _ => rfl, by simp, fun j c c' h1 h2 _ => by rw [h1] at h2; cases h2; rfl⟩⟩
  | n + 1, i, seen, s, hs, hc => by
    unfold sosComponents
    rw [wp_bind]
    refine wp_readByte (fun id r hr => ?_) (fun _ => trivial)
    rw [wp_bind, wp_getDec]
    refine wp_ite_of (fun _ => trivial) fun hid => ?_
    dsimp only at hid
    rw [wp_bind, wp_idx]
    cases hseen : seen[id.toNat]? with
    | none =>
      refine Or.inr ⟨rfl, ?_⟩
      by_contra hp
      have := hc hp
      rw [List.getElem?_eq_none_iff] at hseen
      omega
    | some b =>
      refine Or.inl ⟨b, rfl, ?_⟩
      refine wp_ite_of (fun _ => trivial) fun hb => ?_
      simp at hb
      subst hb
      rw [wp_bind]
      refine wp_readByte (fun y r2 hr2 => ?_) (fun _ => trivial)
      rw [wp_bind]
      refine wp_mono (wp_findComponent _ _ _ fun hp => ?_) ?_ (fun _ _ h => h)
      · have := hc hp; simpa using this.2
      rintro j s2 ⟨rfl, -, hj2, hj3, hj4⟩
      refine wp_ite_of (fun _ => trivial) fun hj => ?_
      rw [wp_bind, wp_modDec]
      dsimp only at hj hj2 hj3 hj4 hr2 ⊢
      have hjlt : j < s.dec.info.components.toNat := by omega
      obtain ⟨c, hcj, hcid⟩ := hj3 (by omega)
      have hmod : List.Forall₂ SameButTables s.dec.components (s.dec.components.modify j fun c =>
          { c with dcHuffTable := (y >>> 4).toNat, acHuffTable := (y &&& 0xF).toNat }) :=
        forall₂_modify fun _ => rfl
      refine wp_mono (wp_sosComponents n (i + 1) (seen.set id.toNat true) _ (by simp [hs]) ?_) ?_
        (fun _ _ h => h)
      · intro hp
        simpa using hc hp
      · rintro _ s' ⟨ps, hl, hbytes, H⟩
        dsimp only at hbytes
        have hnot : ∀ p ∈ ps, p.1 ≠ id := by
          intro p hp he
          have := H.unseen p hp
          rw [he, List.getElem?_set_self (by
            by_contra hlt
            rw [List.getElem?_eq_none (by omega)] at hseen
            cases hseen)] at this
          cases this
        refine ⟨(id, y) :: ps, by simp [hl], by rw [hr, hr2, hbytes]; simp, ?_⟩
        constructor
        · exact H.dec
        · rw [H.zlen]; simp
        · exact forall₂_same_trans hmod H.comps
        · rw [List.map_cons, List.nodup_cons]
          refine ⟨?_, H.nodup⟩
          intro hm
          obtain ⟨p, hp, he⟩ := List.mem_map.1 hm
          exact hnot p hp he
        · intro p hp
          rcases List.mem_cons.1 hp with rfl | hp
          · exact hseen
          · have := H.unseen p hp
            rw [List.getElem?_set_ne (by
              intro he
              exact hnot p hp (UInt8.toNat_inj.1 he.symm))] at this
            exact this
        · intro k hk
          rw [H.zkeep k (by omega), List.getElem?_set_ne (by omega)]
        · intro k p hk
          cases k with
          | zero =>
            simp at hk
            subst hk
            have e1 : (s.dec.components.modify j fun c => { c with
                dcHuffTable := (y >>> 4).toNat, acHuffTable := (y &&& 0xF).toNat })[j]? =
                some { c with dcHuffTable := (y >>> 4).toNat, acHuffTable := (y &&& 0xF).toNat } := by
              rw [List.getElem?_modify_eq, hcj]; rfl
            obtain ⟨c', h1, h2⟩ := forall₂_get H.comps e1
            have h3 := H.other j _ _ e1 h1 (fun p hp => by rw [hcid]; exact hnot p hp)
            refine ⟨j, c', h1, by rw [h3]; exact hcid, hjlt, by rw [h3], by rw [h3], fun hz => ?_⟩
            rw [Nat.add_zero] at hz ⊢
            rw [H.zkeep i (by omega), List.getElem?_set_self hz]
          | succ k =>
            simp at hk
            obtain ⟨j', c', h1, h2, h3, h4, h5, h6⟩ := H.entry k p hk
            refine ⟨j', c', h1, h2, h3, h4, h5, fun hz => ?_⟩
            rw [show i + (k + 1) = i + 1 + k by omega]
            apply h6
            simp
            omega
        · intro k c1 c1' h1 h2 hne
          have hkj : j ≠ k := by
            intro he
            subst he
            rw [hcj] at h1
            cases h1
            exact hne (id, y) (by simp) hcid.symm
          refine H.other k c1 c1' ?_ h2 (fun p hp => hne p (by simp [hp]))
          dsimp only
          rw [List.getElem?_modify, h1]
          simp [hkj]

/-- An accepted scan header. -/
structure SosOk (d : Decoder) (rd : List UInt8) (d' : Decoder) (rd' : List UInt8)
    (x y n ss se a : UInt8) (ps : List (UInt8 × UInt8)) : Prop where
  bytes : rd = x :: y :: n :: (ps.flatMap (fun p => [p.1, p.2]) ++ ss :: se :: a :: rd')
  len : (be16 x y).toNat = 6 + 2 * n.toNat
  count : ps.length = n.toNat
  range : 1 ≤ n.toNat ∧ n.toNat ≤ 3
  frame : d.info.components ≠ 0
  high : (a >>> 4).toNat ≤ 13
  low : (a &&& 0xF).toNat ≤ 13
  comps : SosComps 0 [false, false, false, false] { d with numScans := n.toNat }
    { d with numScans := n.toNat, components := d'.components, zOrder := d'.zOrder } ps
  dec : d' = { d with
    numScans := n.toNat, components := d'.components, zOrder := d'.zOrder
    specStart := (ss &&& 63).toNat, specEnd := (se &&& 63).toNat
    succHigh := (a >>> 4).toNat, succLow := (a &&& 0xF).toNat }

theorem wp_parseSos (hc : ¬ pn → s.dec.components.length ≤ 3 ∧
    s.dec.info.components.toNat ≤ s.dec.components.length) :
    wp pn dv parseSos (fun _ s' => ∃ x y n ss se a ps,
      SosOk s.dec s.rd s'.dec s'.rd x y n ss se a ps) (fun _ _ => True) s := by
  unfold parseSos
  rw [wp_bind]
  refine wp_readU16 (fun x y r0 hr0 => ?_) (fun _ => trivial)
  rw [wp_bind]
  refine wp_readByte (fun n r1 hr1 => ?_) (fun _ => trivial)
  rw [wp_bind, wp_modDec]
  refine wp_ite_of (fun _ => trivial) fun hl => ?_
  refine wp_ite_of (fun _ => trivial) fun hn => ?_
  rw [wp_bind, wp_getDec]
  refine wp_ite_of (fun _ => trivial) fun hf => ?_
  rw [wp_bind]
  dsimp only at *
  refine wp_mono (wp_sosComponents _ _ _ _ rfl hc) ?_ (fun _ _ h => h)
  rintro _ ⟨d2, r2⟩ ⟨ps, hps, hb, H⟩
  rw [wp_bind]
  refine wp_readByte (fun ss r3 hr3 => ?_) (fun _ => trivial)
  rw [wp_bind, wp_modDec, wp_bind]
  refine wp_readByte (fun se r4 hr4 => ?_) (fun _ => trivial)
  rw [wp_bind, wp_modDec, wp_bind]
  refine wp_readByte (fun a r5 hr5 => ?_) (fun _ => trivial)
  rw [wp_bind, wp_modDec]
  refine wp_ite_of (fun _ => trivial) fun hh => ?_
  rw [wp_bind, wp_modDec, wp_failIf]
  refine ⟨fun hlow => ?_, fun _ => trivial⟩
  dsimp only at *
  refine ⟨x, y, n, ss, se, a, ps, ?_⟩
  constructor
  · rw [hr0, hr1, hb, hr3, hr4, hr5]
  · rw [← be16] at hl; omega
  · exact hps
  · omega
  · exact hf
  · omega
  · simp only [decide_eq_false_iff_not] at hlow; omega
  · exact Eq.subst (motive := fun D => SosComps 0 _ _ D ps) H.dec H
  · have e := H.dec
    dsimp only at e ⊢
    rw [Decoder.mk.injEq] at *
    tauto
end

end Zune
