import Verif.Lemmas.Sound
import Verif.Lemmas.Total
/-! Headers and scans keep the sampling factors powers of two and leave no slice. -/

namespace Zune

/-- The sampling factors of a component. -/
def Component.factors (c : Component) : Nat × Nat := (c.verticalSample, c.horizontalSample)

/-- Both sampling factors are 1, 2, 4 or 8. -/
def Component.Pow2 (c : Component) : Prop :=
  isPow2 c.verticalSample = true ∧ isPow2 c.horizontalSample = true

/-- The functions chosen when the decoder was made. -/
abbrev Decoder.fns (d : Decoder) : Cpu × IdctFn × ColorFn := (d.cpu, d.idctFn, d.colorFn)

/-- A property of the decoder that depends on the sampling factors, the input colour space and the
chosen functions, is not broken by switching to grayscale, and holds for the components of every
frame header. -/
structure Shape (P : Decoder → Prop) : Prop where
  same : ∀ {d d' : Decoder}, P d → d'.components.map Component.factors =
    d.components.map Component.factors →
    (d'.inputColorspace = d.inputColorspace ∨ d'.inputColorspace = .grayscale) →
    (eF : d'.fns = d.fns := by exact rfl) → P d'
  fresh : ∀ {d d' : Decoder}, P d → d'.fns = d.fns → (∀ c ∈ d'.components, c.Pow2) → P d'

variable {P : Decoder → Prop}

/-- The condition on the state of the header parser. -/
abbrev onH (P : Decoder → Prop) : H → Prop := fun s => P s.dec

theorem Shape.keep (S : Shape P) {d d' : Decoder} (h : P d) (e : d'.components = d.components)
    (e' : d'.inputColorspace = d.inputColorspace) (e'' : d'.fns = d.fns := by exact rfl) : P d' :=
  S.same h (by rw [e]) (Or.inl e') e''

theorem map_factors_modify {l : List Component} {j : Nat} {f : Component → Component}
    (hf : ∀ c, (f c).factors = c.factors) :
    (l.modify j f).map Component.factors = l.map Component.factors := by
  apply List.ext_getElem?
  intro i
  rw [List.getElem?_map, List.getElem?_map, List.getElem?_modify]
  cases l[i]? with
  | none => rfl
  | some c =>
    by_cases h : j = i
    · simp [h, hf]
    · simp [h]

section
variable {α : Type} {R : α → Prop}

theorem Snd.getDec {g : Decoder → M H α} (h : ∀ d, P d → Snd (onH P) (g d) R) :
    Snd (onH P) (getDec >>= g) R := fun s hs => h s.dec hs s hs

theorem Snd.modDec {f : Decoder → Decoder} (h : ∀ d, P d → P (f d)) :
    Snd (onH P) (modDec f) fun _ => True :=
  fun s hs => ⟨fun e => (by cases e), h _ hs, fun _ _ => trivial⟩

theorem Snd.readByte : Snd (onH P) readByte fun _ => True := by
  rintro ⟨d, _ | ⟨b, l⟩⟩ hs <;> exact ⟨fun e => (by cases e), hs, fun _ _ => trivial⟩
theorem Snd.readU16 (e : DecodeErr) : Snd (onH P) (readU16 e) fun _ => True := by
  rintro ⟨d, _ | ⟨b, _ | ⟨c, l⟩⟩⟩ hs <;> exact ⟨fun e => (by cases e), hs, fun _ _ => trivial⟩
theorem Snd.readExact (n : Nat) (e : DecodeErr) : Snd (onH P) (readExact n e) fun _ => True := by
  rintro ⟨d, rd⟩ hs
  unfold Zune.readExact
  dsimp only
  by_cases h : rd.length < n
  · rw [if_pos h]; exact ⟨fun e => (by cases e), hs, fun _ _ => trivial⟩
  · rw [if_neg h]; exact ⟨fun e => (by cases e), hs, fun _ _ => trivial⟩
theorem Snd.consume (n : Nat) : Snd (onH P) (consume n) fun _ => True :=
  fun _ hs => ⟨fun e => (by cases e), hs, fun _ _ => trivial⟩
end

/-- `snd` with the operations of the header parser. -/
macro "sndH" S:term : tactic => `(tactic| repeat' with_reducible (first
  | assumption
  | exact Snd.pure _ | exact Snd.throw _ | exact Snd.panic (by decide) | exact Snd.diverge
  | exact (Snd.idx _ _).triv | exact (Snd.okOr _ _).triv | exact (Snd.unwrap _).triv
  | exact Snd.failIf _ _
  | exact Snd.readByte | exact Snd.readU16 _ | exact Snd.readExact _ _ | exact Snd.consume _
  | refine Snd.getDec fun _ _ => ?_
  | refine Snd.get fun _ _ => ?_
  | refine Snd.bind ?_ fun _ => ?_
  | refine Snd.ite (fun _ => ?_) (fun _ => ?_)
  | exact Snd.modDec fun _ hp => Shape.keep $S hp rfl rfl))

variable (S : Shape P)
include S

omit S in
theorem snd_skipSegment : Snd (onH P) skipSegment fun _ => True := by
  unfold skipSegment; snd
  all_goals first | exact Snd.readU16 _ | exact Snd.consume _

theorem snd_parseHuffmanLoop : ∀ fuel len, Snd (onH P) (parseHuffmanLoop fuel len) fun _ => True
  | 0, len => by unfold parseHuffmanLoop; sndH S
  | fuel + 1, len => by
    have ih := fun l => snd_parseHuffmanLoop fuel l
    unfold parseHuffmanLoop
    dsimp only
    sndH S
    · refine Snd.modDec fun d hp => ?_
      split <;> exact S.keep hp rfl rfl
    · exact ih _

theorem snd_parseHuffman : Snd (onH P) parseHuffman fun _ => True := by
  have h := fun a b => snd_parseHuffmanLoop S a b
  unfold parseHuffman
  sndH S
  exact h _ _

theorem snd_parseDqtLoop : ∀ fuel len, Snd (onH P) (parseDqtLoop fuel len) fun _ => True
  | 0, len => by unfold parseDqtLoop; sndH S
  | fuel + 1, len => by
    have ih := fun l => snd_parseDqtLoop fuel l
    unfold parseDqtLoop
    dsimp only
    sndH S
    exact ih _

theorem snd_parseDqt : Snd (onH P) parseDqt fun _ => True := by
  have h := fun a b => snd_parseDqtLoop S a b
  unfold parseDqt
  sndH S
  exact h _ _

omit S in
theorem component_from_ne (a b c : UInt8) : Component.from a b c ≠ .panic .unsound := by
  rcases component_from_returns a b c with ⟨x, h⟩ | h <;> rw [h] <;> simp

omit S in
theorem isPow2_two_pow {n : Nat} (h : ∃ k, k ≤ 3 ∧ n = 2 ^ k) : isPow2 n = true := by
  obtain ⟨k, hk, rfl⟩ := h
  rcases k with _ | _ | _ | _ | k
  · decide
  · decide
  · decide
  · decide
  · omega

omit S in
theorem component_from_pow2 {a b c : UInt8} {comp : Component}
    (h : Component.from a b c = .ok comp) : comp.Pow2 :=
  ⟨isPow2_two_pow (component_from h).1.v, isPow2_two_pow (component_from h).1.h⟩

omit S in
theorem snd_readComponents : ∀ n, Snd (onH P) (readComponents n) fun cs => ∀ c ∈ cs, c.Pow2
  | 0 => Snd.pureR (by simp)
  | n + 1 => by
    have ih := snd_readComponents n
    unfold readComponents
    refine Snd.bind (Snd.readExact _ _) fun t => ?_
    split
    · refine Snd.bindR (Snd.ofOut (component_from_ne _ _ _)) fun c hc => ?_
      refine Snd.bindR ih fun rest hr => Snd.pureR ?_
      intro x hx
      rcases List.mem_cons.1 hx with rfl | hx
      · exact component_from_pow2 hc
      · exact hr x hx
    · exact Snd.panic (by decide)

theorem snd_setupComponents : ∀ cs : List Component, (∀ c ∈ cs, c.Pow2) →
    Snd (onH P) (setupComponents cs) fun cs => ∀ c ∈ cs, c.Pow2
  | [], _ => Snd.pureR (by simp)
  | c :: cs, h => by
    have ih := snd_setupComponents cs fun x hx => h x (List.mem_cons_of_mem _ hx)
    unfold setupComponents
    refine Snd.bind (Snd.modDec fun d hp => S.keep hp rfl rfl) fun _ => Snd.getDec fun d _ => ?_
    refine Snd.bind (Snd.idx _ _).triv fun qt => Snd.bind (Snd.okOr _ _).triv fun qt => ?_
    refine Snd.bindR ih fun rest hr => Snd.pureR ?_
    intro x hx
    rcases List.mem_cons.1 hx with rfl | hx
    · exact h c List.mem_cons_self
    · exact hr x hx

theorem snd_parseStartOfFrame (sof : SofMarker) :
    Snd (onH P) (parseStartOfFrame sof) fun _ => True := by
  unfold parseStartOfFrame
  refine Snd.bind (Snd.readU16 _) fun len => Snd.bind Snd.readByte fun pr =>
    Snd.ite (fun _ => Snd.throw _) fun _ => ?_
  refine Snd.bind (Snd.modDec fun d hp => S.keep hp rfl rfl) fun _ => ?_
  refine Snd.bind (Snd.readU16 _) fun h => ?_
  refine Snd.bind (Snd.modDec fun d hp => S.keep hp rfl rfl) fun _ => ?_
  refine Snd.bind (Snd.readU16 _) fun w => ?_
  refine Snd.bind (Snd.modDec fun d hp => S.keep hp rfl rfl) fun _ => Snd.getDec fun d _ => ?_
  refine Snd.ite (fun _ => Snd.throw _) fun _ => Snd.ite (fun _ => Snd.throw _) fun _ =>
    Snd.ite (fun _ => Snd.throw _) fun _ => Snd.bind Snd.readByte fun n =>
    Snd.ite (fun _ => Snd.throw _) fun _ => Snd.ite (fun _ => Snd.throw _) fun _ => ?_
  refine Snd.bind (Snd.modDec fun d hp => ?_) fun _ => ?_
  · split
    · exact S.same hp rfl (Or.inr rfl)
    · exact hp
  refine Snd.bind (Snd.modDec fun d hp => S.keep hp rfl rfl) fun _ => ?_
  refine Snd.bindR (snd_readComponents _) fun cs hc => ?_
  refine Snd.bind (Snd.modDec fun d hp => S.keep hp rfl rfl) fun _ => ?_
  exact Snd.bindR (snd_setupComponents S _ hc) fun cs hc => Snd.modDec fun d hp => S.fresh hp rfl hc

omit S in
theorem snd_findComponent (id : UInt8) (cs : List Component) : ∀ n j,
    Snd (onH P) (findComponent id cs n j) fun _ => True
  | 0, j => by unfold findComponent; snd
  | n + 1, j => by
    have ih := snd_findComponent id cs n (j + 1)
    unfold findComponent
    snd

theorem snd_sosComponents : ∀ n i seen, Snd (onH P) (sosComponents n i seen) fun _ => True
  | 0, i, seen => by unfold sosComponents; sndH S
  | n + 1, i, seen => by
    have ih := fun l => snd_sosComponents n (i + 1) l
    have h1 := fun a b c d => snd_findComponent (P := P) a b c d
    unfold sosComponents
    sndH S
    · exact h1 _ _ _ _
    · exact Snd.modDec fun d hp => S.same hp (map_factors_modify fun _ => rfl) (Or.inl rfl)
    · exact ih _

theorem snd_parseSos : Snd (onH P) parseSos fun _ => True := by
  have h1 := fun a b c => snd_sosComponents S a b c
  unfold parseSos
  sndH S
  all_goals exact h1 _ _ _

theorem snd_parseMarkerInner (m : Marker) : Snd (onH P) (parseMarkerInner m) fun _ => True := by
  unfold parseMarkerInner
  split
  · exact snd_parseStartOfFrame S _
  · exact Snd.bind (Snd.modDec fun d hp => S.keep hp rfl rfl) fun _ => snd_parseStartOfFrame S _
  · sndH S
  · exact snd_parseDqt S
  · exact snd_parseHuffman S
  · exact snd_parseSos S
  · sndH S
  · sndH S
  · sndH S
  · sndH S
  all_goals exact snd_skipSegment

theorem snd_headerLoop : ∀ fuel last count, Snd (onH P) (headerLoop fuel last count) fun _ => True
  | 0, last, count => by unfold headerLoop; sndH S
  | fuel + 1, last, count => by
    have ih := fun a b => snd_headerLoop fuel a b
    unfold headerLoop
    refine Snd.bind Snd.readByte fun m => Snd.bind ?_ fun c => ?_
    · unfold headerStep
      refine Snd.ite (fun _ => ?_) fun _ => Snd.pure _
      split
      · refine Snd.bind (snd_parseMarkerInner S _) fun _ => ?_
        sndH S
      · exact Snd.bind (snd_skipSegment) fun _ => Snd.pure _
    · split
      · sndH S
      · sndH S
        exact ih _ _

theorem snd_decodeHeaders : Snd (onH P) decodeHeaders fun _ => True := by
  intro s hs
  unfold decodeHeaders
  have h1 := fun a b c => snd_headerLoop S a b c
  have : Snd (onH P) (do
      let magic ← readU16 .exhausted
      if magic ≠ 0xffd8 then M.throw (.illegalMagic magic.toNat)
      else headerLoop (s.rd.length + 1) 0 0 : M H Unit) fun _ => True := by
    sndH S
    exact h1 _ _ _
  exact this s hs

/-! ### Scans -/

/-- The condition on the state of the scan decoder. -/
def onT (P : Decoder → Prop) (t : T) : Prop := P t.dec ∧ ∀ j ∈ t.jobs, j ≠ .panic .unsound

omit S in
theorem snd_liftH {α : Type} {m : M H α} {R : α → Prop} (h : Snd (onH P) m R) :
    Snd (onT P) (liftH m) R := by
  intro t ht
  obtain ⟨h1, h2, h3⟩ := h ⟨t.dec, t.io.rd⟩ ht.1
  exact ⟨h1, ⟨h2, ht.2⟩, h3⟩

omit S in
theorem snd_liftB {α : Type} {m : M B α} {R : α → Prop} (h : Snd (fun _ => True) m R) :
    Snd (onT P) (liftB m) R := by
  intro t ht
  obtain ⟨h1, h2, h3⟩ := h t.io trivial
  exact ⟨h1, ht, h3⟩

theorem snd_handleRst : Snd (onT P) handleRst fun _ => True := by
  intro t ht
  have h0 : P { t.dec with todo := t.dec.restartInterval } := S.keep ht.1 rfl rfl
  have key : (handleRst t).1 ≠ .panic .unsound ∧ onT P (handleRst t).2 := by
    unfold handleRst
    dsimp only
    cases t.io.bs.marker with
    | none => exact ⟨fun e => (by cases e), h0, ht.2⟩
    | some m =>
      cases m
      case rst =>
        exact ⟨fun e => (by cases e), S.same h0 (by simp [List.map_map]; exact fun _ _ => rfl) (Or.inl rfl), ht.2⟩
      all_goals exact ⟨fun e => (by cases e), h0, ht.2⟩
  exact ⟨key.1, key.2, fun _ _ => trivial⟩

theorem snd_countDown : Snd (onT P) countDown fun _ => True := by
  intro t ht
  have h0 : onT P { t with dec := { t.dec with todo := wrappingPred t.dec.todo } } :=
    ⟨S.keep ht.1 rfl rfl, ht.2⟩
  unfold countDown
  dsimp only
  split
  · exact snd_handleRst S _ h0
  · exact ⟨fun e => (by cases e), h0, fun _ _ => trivial⟩

theorem snd_decodeBlock (dc ac : HuffmanTable) (pos : Nat) (block : List I16) :
    Snd (onT P) (decodeBlock dc ac pos block) fun b => b.length = block.length := by
  intro t ht
  unfold decodeBlock
  dsimp only
  cases t.dec.components[pos]? with
  | none => exact ⟨fun e => (by cases e), ht, fun _ e => by cases e⟩
  | some c =>
    obtain ⟨h1, h2⟩ := decodeMcuBlock_ne dc ac block c.dcPred t.io
    exact ⟨h1, ⟨S.same ht.1 (map_factors_modify fun _ => rfl) (Or.inl rfl), ht.2⟩, h2⟩

/-- The lengths of the coefficient buffers. -/
abbrev sizes (l : List (List I16)) : List Nat := l.map List.length

omit S in
theorem sizes_set {l : List (List I16)} {i : Nat} {a b : List I16} (h : l[i]? = some a)
    (hb : b.length = a.length) : sizes (l.set i b) = sizes l := by
  apply List.ext_getElem?
  intro j
  rw [List.getElem?_map, List.getElem?_map, List.getElem?_set]
  by_cases hj : i = j
  · subst hj
    obtain ⟨hl, -⟩ := List.getElem?_eq_some_iff.1 h
    rw [if_pos rfl, if_pos hl, h]
    simp [hb]
  · rw [if_neg hj]

theorem snd_decodeSample (s : Scan) (v j pos : Nat) (dc ac : HuffmanTable) (c : Component)
    (temp : List (List I16)) (vh : Nat × Nat) :
    Snd (onT P) (decodeSample s v j pos dc ac c temp vh) fun t => sizes t = sizes temp := by
  unfold decodeSample
  refine Snd.get fun t _ => Snd.ite (fun _ => ?_) fun _ => ?_
  · refine Snd.bindR (Snd.unwrap _) fun buf hb => Snd.ite (fun hl => ?_) fun _ =>
      Snd.panic (by decide)
    refine Snd.bindR (snd_decodeBlock S _ _ _ _) fun b he => Snd.pureR ?_
    refine sizes_set hb (length_writeAt ?_)
    rw [he, List.length_take, List.length_drop]
    omega
  · exact Snd.bind (snd_decodeBlock S _ _ _ _).triv fun b => Snd.pureR rfl

theorem snd_decodeComponent (s : Scan) (v j : Nat) (temp : List (List I16)) (pos : Nat) :
    Snd (onT P) (decodeComponent s v j temp pos) fun t => sizes t = sizes temp := by
  unfold decodeComponent
  refine Snd.get fun t _ => Snd.bind (Snd.idx _ _).triv fun c => Snd.bind (Snd.idx _ _).triv fun dc =>
    Snd.bind (Snd.okOr _ _).triv fun dc => Snd.bind (Snd.idx _ _).triv fun ac =>
    Snd.bind (Snd.okOr _ _).triv fun ac => ?_
  exact Snd.foldM (fun b a hb => (snd_decodeSample S _ _ _ _ _ _ _ _ _).mono fun _ h => h.trans hb)
    _ _ rfl

theorem snd_decodeMcu (s : Scan) (v j : Nat) : ∀ l temp,
    Snd (onT P) (decodeMcu s v j l temp) fun t => sizes t = sizes temp
  | [], temp => Snd.pureR rfl
  | pos :: rest, temp => by
    have ih := fun t => snd_decodeMcu s v j rest t
    unfold decodeMcu
    refine Snd.bindR (snd_decodeComponent S _ _ _ _ _) fun temp' he => ?_
    refine Snd.bind (snd_countDown S) fun _ => Snd.get fun t _ => ?_
    have ih' := (ih temp').mono fun _ h => h.trans he
    cases t.io.bs.marker with
    | none => exact ih'
    | some m =>
      cases m
      case eoi => exact Snd.pureR he
      case rst => exact ih'
      all_goals exact Snd.bind (snd_liftH (snd_parseMarkerInner S _)) fun _ => ih'

theorem snd_decodeStrip (s : Scan) (temp : List (List I16)) :
    Snd (onT P) (decodeStrip s temp) fun t => sizes t = sizes temp := by
  unfold decodeStrip
  refine Snd.foldM (fun b a hb => ?_) _ _ rfl
  exact Snd.get fun t _ => (snd_decodeMcu S _ _ _ _ _).mono fun _ h => h.trans hb

theorem snd_progDc (k : Nat) (c : I16) (table : HuffmanTable) :
    Snd (onT P) (progDc k c table) fun _ => True := by
  unfold progDc
  refine Snd.get fun t _ => Snd.bind (Snd.idx _ _).triv fun comp => Snd.ite (fun _ => ?_) fun _ => ?_
  · refine Snd.bind (snd_liftB (sndB_dcFirst _ _)) fun x => ?_
    refine Snd.bind (m := setPred k x.2) ?_ fun _ => Snd.pure _
    intro t ht
    exact ⟨fun e => (by cases e), ⟨S.same ht.1 (map_factors_modify fun _ => rfl) (Or.inl rfl), ht.2⟩,
      fun _ _ => trivial⟩
  · exact snd_liftB (sndB_dcRefine _)

omit S in
theorem snd_progTable (l : List (Option HuffmanTable)) (i : Nat) :
    Snd (onT P) (progTable l i) fun _ => True := by
  intro t ht
  unfold progTable
  split <;> exact ⟨fun e => (by cases e), ht, fun _ _ => trivial⟩

theorem snd_progBlock (k w i j : Nat) (block : List I16) :
    Snd (onT P) (progBlock k w i j block) fun _ => True := by
  unfold progBlock
  refine Snd.get fun t _ => Snd.bind (Snd.idx _ _).triv fun comp => Snd.ite (fun _ => ?_) fun _ => ?_
  · exact Snd.bind (snd_progTable _ _) fun table => Snd.bind (Snd.idx _ _).triv fun c =>
      Snd.bind (snd_progDc S _ _ _) fun v => Snd.pure _
  · refine Snd.bind (snd_progTable _ _) fun table => Snd.ite (fun _ => ?_) fun _ => ?_
    · refine Snd.ite (fun _ => ?_) fun _ => ?_
      · exact Snd.bind (Snd.modify fun t ht => ht) fun _ => Snd.pure _
      · exact Snd.bind (snd_liftB (sndB_acFirst _ _)) fun b => Snd.pure _
    · exact Snd.bind (snd_liftB (sndB_acRefine _ _)) fun b => Snd.pure _

theorem snd_progLoop (k w h : Nat) : ∀ fuel i j bufs,
    Snd (onT P) (progLoop k w h fuel i j bufs) fun _ => True
  | 0, i, j, bufs => by
    unfold progLoop
    exact Snd.ite (fun _ => Snd.diverge) fun _ => Snd.pure _
  | fuel + 1, i, j, bufs => by
    have ih := fun i j b => snd_progLoop k w h fuel i j b
    unfold progLoop
    refine Snd.ite (fun _ => ?_) fun _ => Snd.pure _
    refine Snd.ite (fun _ => ?_) fun _ => ih _ _ _
    refine Snd.get fun t _ => Snd.bind (Snd.idx _ _).triv fun comp => ?_
    refine Snd.bind (Snd.unwrap _).triv fun buf => Snd.ite (fun _ => ?_) fun _ =>
      Snd.panic (by decide)
    exact Snd.bind (snd_progBlock S _ _ _ _ _) fun x => Snd.bind (snd_countDown S) fun _ => ih _ _ _

theorem snd_interComponent (i j : Nat) (bufs : List (List I16)) (k : Nat) :
    Snd (onT P) (interComponent i j bufs k) fun _ => True := by
  unfold interComponent
  refine Snd.get fun t _ => Snd.bind (Snd.idx _ _).triv fun n => Snd.ite (fun _ => Snd.throw _)
    fun _ => ?_
  refine Snd.bind (Snd.idx _ _).triv fun comp => Snd.bind (snd_progTable _ _) fun table => ?_
  refine Snd.bind (Snd.foldM (R := fun _ => True) (fun b a _ => ?_) _ _ trivial) fun b =>
    Snd.bind (snd_countDown S) fun _ => Snd.pure _
  unfold interSample
  exact Snd.bind (Snd.idx _ _).triv fun buf => Snd.bind (Snd.idx _ _).triv fun c =>
    Snd.bind (snd_progDc S _ _ _) fun v => Snd.pure _

end Zune
