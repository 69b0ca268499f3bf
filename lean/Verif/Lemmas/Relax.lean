import Verif.Model.Prog
import Verif.Lemmas.Wp
import Verif.Lemmas.Local
import Verif.Lemmas.Slice
/-! Successful runs are kept when the limits are raised, strict mode is turned off, the number of
threads is changed and Huffman tables are put into slots that are empty. -/

namespace Zune

/-- A change of the decoder: larger limits, whether strict mode is kept, the change of the number of
threads, and tables for empty slots. -/
structure Relax where
  width : Nat → Nat
  height : Nat → Nat
  scans : Nat → Nat
  le_width : ∀ n, n ≤ width n
  le_height : ∀ n, n ≤ height n
  le_scans : ∀ n, n ≤ scans n
  keepStrict : Bool
  threads : Nat → Nat
  dc : Nat → Option HuffmanTable := fun _ => none
  ac : Nat → Option HuffmanTable := fun _ => none

/-- Put tables into the slots that are empty. -/
def fillTables (x : Nat → Option HuffmanTable) (l : List (Option HuffmanTable)) :
    List (Option HuffmanTable) := l.mapIdx fun i o => o.or (x i)

/-- The changed options. -/
abbrev Relax.opts (r : Relax) (o : Options) : Options :=
  { o with
    maxWidth := r.width o.maxWidth
    maxHeight := r.height o.maxHeight
    maxScans := r.scans o.maxScans
    strictMode := o.strictMode && r.keepStrict
    numThreads := r.threads o.numThreads }

/-- The changed decoder. -/
abbrev Relax.dec (r : Relax) (d : Decoder) : Decoder :=
  { d with
    options := r.opts d.options
    dcTables := fillTables r.dc d.dcTables
    acTables := fillTables r.ac d.acTables }

theorem fillTables_none (l : List (Option HuffmanTable)) : fillTables (fun _ => none) l = l := by
  unfold fillTables
  apply List.ext_getElem?
  intro i
  rw [List.getElem?_mapIdx]
  cases l[i]? with
  | none => rfl
  | some o => cases o <;> rfl

theorem fillTables_set {x : Nat → Option HuffmanTable} {l : List (Option HuffmanTable)} {i : Nat}
    {t : HuffmanTable} : (fillTables x l).set i (some t) = fillTables x (l.set i (some t)) := by
  unfold fillTables
  apply List.ext_getElem?
  intro k
  rw [List.getElem?_mapIdx, List.getElem?_set, List.getElem?_set, List.length_mapIdx,
    List.getElem?_mapIdx]
  split
  · split <;> rfl
  · rfl

theorem fillTables_some {x : Nat → Option HuffmanTable} {l : List (Option HuffmanTable)} {i : Nat}
    {t : HuffmanTable} (h : l[i]? = some (some t)) : (fillTables x l)[i]? = some (some t) := by
  unfold fillTables
  rw [List.getElem?_mapIdx, h]
  rfl
/-- Change the decoder in the state of the header parser. -/
abbrev onDec (g : Decoder → Decoder) (s : H) : H := { s with dec := g s.dec }
/-- The same for the state of the header parser. -/
abbrev Relax.h (r : Relax) : H → H := onDec r.dec
/-- The same for the state of the scan decoder. -/
abbrev Relax.t (r : Relax) (t : T) : T := { t with dec := r.dec t.dec }

/-- Successful runs of `m` are runs of `m'` on states changed by `f`. -/
def Keep {σ α : Type} (f : σ → σ) (m m' : M σ α) : Prop :=
  ∀ s v s', m s = (.ok v, s') → m' (f s) = (.ok v, f s')

section
variable {σ α β : Type} {f : σ → σ}

theorem Keep.bind {m m' : M σ α} {g g' : α → M σ β} (hm : Keep f m m')
    (hg : ∀ a, Keep f (g a) (g' a)) : Keep f (m >>= g) (m' >>= g') := by
  intro s v s' h
  obtain ⟨a, s1, h1, h2⟩ := M.bind_ok_inv h
  rw [M.bind_ok (hm _ _ _ h1)]
  exact hg _ _ _ _ h2

theorem Keep.pure (a : α) : Keep f (Pure.pure a : M σ α) (Pure.pure a) := by
  intro s v s' h; cases h; rfl
theorem Keep.throw (e : DecodeErr) (m : M σ α) : Keep f (M.throw e) m := by
  intro s v s' h; cases h
theorem Keep.panic (e : Site) (m : M σ α) : Keep f (M.panic e) m := by
  intro s v s' h; cases h
theorem Keep.diverge (m : M σ α) : Keep f M.diverge m := by
  intro s v s' h; cases h
theorem Keep.idx (l : List α) (i : Nat) : Keep f (M.idx l i) (M.idx l i) := by
  intro s v s' h
  unfold M.idx at *
  cases hl : l[i]? <;> rw [hl] at h <;> cases h
  rfl
theorem Keep.okOr (o : Option α) (e : DecodeErr) : Keep f (M.okOr o e) (M.okOr o e) := by
  intro s v s' h
  unfold M.okOr at *
  cases o <;> cases h
  rfl
theorem Keep.unwrap (o : Option α) : Keep f (M.unwrap o) (M.unwrap o) := by
  intro s v s' h
  unfold M.unwrap at *
  cases o <;> cases h
  rfl
theorem Keep.ofOut (o : Out α) : Keep f (M.ofOut o) (M.ofOut o) := by
  intro s v s' h
  unfold M.ofOut at *
  simp only [Prod.mk.injEq] at *
  exact ⟨h.1, by rw [h.2]⟩
theorem Keep.failIf (c : Bool) (e : DecodeErr) : Keep f (M.failIf c e) (M.failIf c e) := by
  intro s v s' h
  unfold M.failIf at *
  cases c <;> cases h
  rfl
theorem Keep.ite {c : Prop} [Decidable c] {m m' n n' : M σ α} (hm : Keep f m m')
    (hn : Keep f n n') : Keep f (if c then m else n) (if c then m' else n') := by
  by_cases h : c <;> simpa [h]
theorem Keep.check {c c' : Prop} [Decidable c] [Decidable c'] {e e' : DecodeErr} {m m' : M σ α}
    (hc : c' → c) (hm : Keep f m m') :
    Keep f (if c then M.throw e else m) (if c' then M.throw e' else m') := by
  by_cases h : c
  · rw [if_pos h]; exact .throw _ _
  · rw [if_neg h, if_neg (fun h' => h (hc h'))]; exact hm
theorem Keep.modify {g g' : σ → σ} (h : ∀ s, g' (f s) = f (g s)) :
    Keep f (M.modify g) (M.modify g') := by
  intro s v s' e
  cases e
  simp only [M.modify_apply, h]
theorem Keep.foldM {g g' : β → α → M σ β} (h : ∀ b a, Keep f (g b a) (g' b a)) :
    ∀ (l : List α) (b : β), Keep f (M.foldM l b g) (M.foldM l b g')
  | [], b => .pure b
  | a :: l, b => Keep.bind (h b a) fun b' => Keep.foldM h l b'
theorem Keep.get {g g' : σ → M σ α} (h : ∀ s, Keep f (g s) (g' (f s))) :
    Keep f (M.get >>= g) (M.get >>= g') := by
  intro s v s' e
  exact h s s v s' e
end

section
variable {k : Decoder → Decoder} {α : Type}

theorem Keep.getDec {g g' : Decoder → M H α} (h : ∀ d, Keep (onDec k) (g d) (g' (k d))) :
    Keep (onDec k) (getDec >>= g) (getDec >>= g') := by
  intro s v s' e
  exact h s.dec s v s' e
theorem Keep.modDec {g g' : Decoder → Decoder} (h : ∀ d, g' (k d) = k (g d)) :
    Keep (onDec k) (modDec g) (modDec g') := by
  intro s v s' e
  cases e
  simp only [Zune.modDec, h]
theorem Keep.readByte : Keep (onDec k) readByte readByte := by
  rintro ⟨d, _ | ⟨b, l⟩⟩ v s' e <;> cases e
  rfl
theorem Keep.readU16 (e : DecodeErr) : Keep (onDec k) (readU16 e) (readU16 e) := by
  rintro ⟨d, _ | ⟨b, _ | ⟨c, l⟩⟩⟩ v s' e <;> cases e
  rfl
theorem Keep.readExact (n : Nat) (e : DecodeErr) : Keep (onDec k) (readExact n e) (readExact n e) := by
  rintro ⟨d, rd⟩ v s' h
  unfold Zune.readExact at *
  by_cases hl : rd.length < n
  · simp only [if_pos hl] at h; cases h
  · simp only [if_neg hl] at h; cases h
    dsimp only
    rw [if_neg hl]
theorem Keep.consume (n : Nat) : Keep (onDec k) (consume n) (consume n) := by
  rintro s v s' h
  cases h; rfl

end

section
variable {r : Relax} {α : Type}

/-- Proves `Keep` for code made of the basic operations. -/
macro "keep" : tactic => `(tactic| repeat' with_reducible (first
  | exact Keep.pure _ | exact Keep.throw _ _ | exact Keep.panic _ _ | exact Keep.diverge _
  | exact Keep.idx _ _ | exact Keep.okOr _ _ | exact Keep.unwrap _ | exact Keep.ofOut _
  | exact Keep.failIf _ _ | exact Keep.readByte | exact Keep.readU16 _ | exact Keep.readExact _ _
  | exact Keep.consume _
  | refine Keep.getDec fun _ => ?_ | refine Keep.get fun _ => ?_
  | refine Keep.bind ?_ fun _ => ?_
  | refine Keep.foldM (fun _ _ => ?_) _ _
  | refine Keep.ite ?_ ?_
  | (refine Keep.modDec fun d => ?_; first | rfl | with_unfolding_all rfl | (dsimp only; split <;> rfl))
  | (refine Keep.modify fun d => ?_; with_unfolding_all rfl)
  | assumption))

theorem Keep.skipSegment : Keep r.h skipSegment skipSegment := by
  unfold Zune.skipSegment; keep

theorem Keep.parseHuffmanLoop : ∀ fuel len, Keep r.h (parseHuffmanLoop fuel len)
    (parseHuffmanLoop fuel len)
  | 0, len => by unfold Zune.parseHuffmanLoop; keep
  | fuel + 1, len => by
    have ih := fun l => Keep.parseHuffmanLoop fuel l
    unfold Zune.parseHuffmanLoop
    keep
    · refine Keep.modDec fun d => ?_
      dsimp only
      split <;> simp only [Relax.dec, fillTables_set]
    · exact ih _

theorem Keep.parseHuffman : Keep r.h parseHuffman parseHuffman := by
  unfold Zune.parseHuffman
  have ih := fun a b => Keep.parseHuffmanLoop (r := r) a b
  keep
  all_goals exact ih _ _

theorem Keep.parseDqtLoop : ∀ fuel len, Keep r.h (parseDqtLoop fuel len) (parseDqtLoop fuel len)
  | 0, len => by unfold Zune.parseDqtLoop; keep
  | fuel + 1, len => by
    have ih := fun l => Keep.parseDqtLoop fuel l
    unfold Zune.parseDqtLoop
    keep
    all_goals exact ih _

theorem Keep.parseDqt : Keep r.h parseDqt parseDqt := by
  unfold Zune.parseDqt
  have ih := fun a b => Keep.parseDqtLoop (r := r) a b
  keep
  all_goals exact ih _ _

theorem Keep.readComponents : ∀ n, Keep r.h (readComponents n) (readComponents n)
  | 0 => by unfold Zune.readComponents; keep
  | n + 1 => by
    have ih := Keep.readComponents n
    unfold Zune.readComponents
    refine Keep.bind (Keep.readExact _ _) fun t => ?_
    split <;> keep

theorem Keep.setupComponents : ∀ cs, Keep r.h (setupComponents cs) (setupComponents cs)
  | [] => by unfold Zune.setupComponents; keep
  | c :: cs => by
    have ih := Keep.setupComponents cs
    unfold Zune.setupComponents
    keep

theorem Keep.parseStartOfFrame (sof : SofMarker) :
    Keep r.h (parseStartOfFrame sof) (parseStartOfFrame sof) := by
  have h1 := fun n => Keep.readComponents (r := r) n
  have h2 := fun n => Keep.setupComponents (r := r) n
  unfold Zune.parseStartOfFrame
  refine Keep.bind (Keep.readU16 _) fun _ => Keep.bind Keep.readByte fun _ => Keep.ite
    (Keep.throw _ _) ?_
  refine Keep.bind (Keep.modDec fun _ => rfl) fun _ => Keep.bind (Keep.readU16 _) fun h => ?_
  refine Keep.bind (Keep.modDec fun _ => rfl) fun _ => Keep.bind (Keep.readU16 _) fun w => ?_
  refine Keep.bind (Keep.modDec fun _ => rfl) fun _ => Keep.getDec fun d => ?_
  refine Keep.check (fun h => ?_) (Keep.check (fun h => ?_) ?_)
  · have : (r.dec d).options.getMaxWidth = r.width d.options.getMaxWidth := rfl
    have := r.le_width d.options.getMaxWidth
    omega
  · have : (r.dec d).options.getMaxHeight = r.height d.options.getMaxHeight := rfl
    have := r.le_height d.options.getMaxHeight
    omega
  keep
  · refine Keep.modDec fun d => ?_
    dsimp only
    split <;> rfl
  · exact h1 _
  · exact h2 _

theorem Keep.findComponent (id : UInt8) (cs : List Component) : ∀ n j,
    Keep r.h (findComponent id cs n j) (findComponent id cs n j)
  | 0, j => by unfold Zune.findComponent; keep
  | n + 1, j => by
    have ih := Keep.findComponent id cs n (j + 1)
    unfold Zune.findComponent
    keep

theorem Keep.sosComponents : ∀ n i seen, Keep r.h (sosComponents n i seen) (sosComponents n i seen)
  | 0, i, seen => by unfold Zune.sosComponents; keep
  | n + 1, i, seen => by
    have ih := fun l => Keep.sosComponents n (i + 1) l
    have h1 := fun a b c d => Keep.findComponent (r := r) a b c d
    unfold Zune.sosComponents
    keep
    all_goals first | exact h1 _ _ _ _ | exact ih _ | skip

theorem Keep.parseSos : Keep r.h parseSos parseSos := by
  have h1 := fun a b c => Keep.sosComponents (r := r) a b c
  unfold Zune.parseSos
  keep
  all_goals exact h1 _ _ _

theorem Keep.parseMarkerInner (m : Marker) :
    Keep r.h (parseMarkerInner m) (parseMarkerInner m) := by
  unfold Zune.parseMarkerInner
  split
  · exact Keep.parseStartOfFrame _
  · exact Keep.bind (Keep.modDec fun _ => rfl) fun _ => Keep.parseStartOfFrame _
  · keep
  · exact Keep.parseDqt
  · exact Keep.parseHuffman
  · exact Keep.parseSos
  · keep
  · keep
  · keep
  · keep
  all_goals exact Keep.skipSegment

theorem Keep.headerStep (last : UInt8) (count : Nat) (m : UInt8) :
    Keep r.h (headerStep last count m) (headerStep last count m) := by
  have h1 := fun m => Keep.parseMarkerInner (r := r) m
  have h2 := Keep.skipSegment (r := r)
  unfold Zune.headerStep
  refine Keep.ite ?_ ?_
  · split <;> keep
    exact h1 _
  · keep

theorem Keep.headerLoop : ∀ fuel last count,
    Keep r.h (headerLoop fuel last count) (headerLoop fuel last count)
  | 0, last, count => by unfold Zune.headerLoop; keep
  | fuel + 1, last, count => by
    have ih := fun a b => Keep.headerLoop fuel a b
    unfold Zune.headerLoop
    refine Keep.bind Keep.readByte fun m => Keep.bind (Keep.headerStep _ _ _) fun c => ?_
    split
    · keep
    · refine Keep.getDec fun d => Keep.check (fun h => ?_) (ih _ _)
      refine ⟨?_, h.2⟩
      have h1 := h.1
      unfold Options.getStrictMode at h1
      simp only [Bool.and_eq_true] at h1
      exact h1.1

theorem Keep.decodeHeaders : Keep r.h decodeHeaders decodeHeaders := by
  intro s v s' e
  unfold Zune.decodeHeaders at *
  have h1 := fun a b c => Keep.headerLoop (r := r) a b c
  have : Keep r.h (do
      let magic ← Zune.readU16 .exhausted
      if magic ≠ 0xffd8 then M.throw (.illegalMagic magic.toNat)
      else Zune.headerLoop (s.rd.length + 1) 0 0 : M H Unit)
    (do
      let magic ← Zune.readU16 .exhausted
      if magic ≠ 0xffd8 then M.throw (.illegalMagic magic.toNat)
      else Zune.headerLoop ((r.h s).rd.length + 1) 0 0 : M H Unit) := by
    keep
    exact h1 _ _ _
  exact this s v s' e


theorem Keep.liftH {m : M H α} (h : Keep r.h m m) : Keep r.t (liftH m) (liftH m) := by
  intro t v t' e
  unfold Zune.liftH at *
  rcases hm : m ⟨t.dec, t.io.rd⟩ with ⟨o, s⟩
  rw [hm] at e
  cases e
  have := h _ _ _ hm
  dsimp only at *
  rw [this]

theorem Keep.liftB (m : M B α) : Keep r.t (liftB m) (liftB m) := by
  intro t v t' e
  unfold Zune.liftB at *
  cases e' : m t.io with
  | mk o s =>
  rw [e'] at e
  cases e
  rfl

theorem Keep.liftDec {m : M Decoder α} (h : Keep r.dec m m) :
    Keep r.h (liftDec m) (liftDec m) := by
  intro t v t' e
  unfold Zune.liftDec at *
  rcases hm : m t.dec with ⟨o, s⟩
  rw [hm] at e
  cases e
  have := h _ _ _ hm
  dsimp only at *
  rw [this]

theorem Keep.handleRst : Keep r.t handleRst handleRst := by
  intro t v t' e
  unfold Zune.handleRst at *
  dsimp only at *
  cases hm : t.io.bs.marker with
  | none => rw [hm] at e; cases e; rfl
  | some m =>
    rw [hm] at e
    cases m <;> first | (cases e; done) | (cases e; rfl)

theorem Keep.countDown : Keep r.t countDown countDown := by
  intro t v t' e
  unfold Zune.countDown at *
  dsimp only at *
  split at e
  · rename_i h0
    rw [if_pos h0]
    exact Keep.handleRst _ _ _ e
  · rename_i h0
    rw [if_neg h0]
    cases e; rfl

theorem Keep.decodeBlock (dc ac : HuffmanTable) (pos : Nat) (block : List I16) :
    Keep r.t (decodeBlock dc ac pos block) (decodeBlock dc ac pos block) := by
  intro t v t' e
  unfold Zune.decodeBlock at *
  dsimp only at *
  cases hm : t.dec.components[pos]? with
  | none => rw [hm] at e; cases e
  | some c =>
    rw [hm] at e
    dsimp only at *
    rcases hb : decodeMcuBlock dc ac block c.dcPred t.io with ⟨o, p, io⟩
    rw [hb] at e
    cases e
    rfl

theorem Keep.decodeSample (s : Scan) (v j pos : Nat) (dc ac : HuffmanTable) (c : Component)
    (temp : List (List I16)) (vh : Nat × Nat) :
    Keep r.t (decodeSample s v j pos dc ac c temp vh) (decodeSample s v j pos dc ac c temp vh) := by
  unfold Zune.decodeSample
  refine Keep.get fun t => Keep.ite ?_ ?_
  · exact Keep.bind (Keep.unwrap _) fun buf => Keep.ite (Keep.bind (Keep.decodeBlock _ _ _ _)
      fun b => Keep.pure _) (Keep.panic _ _)
  · exact Keep.bind (Keep.decodeBlock _ _ _ _) fun b => Keep.pure _

/-- Looking up a table. -/
theorem Keep.slot {x : Nat → Option HuffmanTable} {l : List (Option HuffmanTable)} {i : Nat}
    {e : DecodeErr} {g g' : HuffmanTable → M T α} (h : ∀ t, Keep r.t (g t) (g' t)) :
    Keep r.t (M.idx l i >>= fun o => M.okOr o e >>= g)
      (M.idx (fillTables x l) i >>= fun o => M.okOr o e >>= g') := by
  intro s v s' hs
  obtain ⟨o, s1, h1, h2⟩ := M.bind_ok_inv hs
  obtain ⟨t, s2, h3, h4⟩ := M.bind_ok_inv h2
  have ho : l[i]? = some o ∧ s1 = s := by
    unfold M.idx at h1
    cases hl : l[i]? <;> rw [hl] at h1 <;> cases h1
    exact ⟨rfl, rfl⟩
  have ht : o = some t ∧ s2 = s1 := by
    unfold M.okOr at h3
    cases o <;> cases h3
    exact ⟨rfl, rfl⟩
  obtain ⟨ho, rfl⟩ := ho
  obtain ⟨rfl, rfl⟩ := ht
  have hf := fillTables_some (x := x) ho
  simp only [M.bind_apply, M.idx, hf, M.okOr]
  exact h t _ _ _ h4

theorem Keep.decodeComponent (s : Scan) (v j : Nat) (temp : List (List I16)) (pos : Nat) :
    Keep r.t (decodeComponent s v j temp pos) (decodeComponent s v j temp pos) := by
  unfold Zune.decodeComponent
  exact Keep.get fun t => Keep.bind (Keep.idx _ _) fun c => Keep.slot fun dc => Keep.slot fun ac =>
    Keep.foldM (fun _ _ => Keep.decodeSample _ _ _ _ _ _ _ _ _) _ _

theorem Keep.decodeMcu (s : Scan) (v j : Nat) : ∀ l temp,
    Keep r.t (decodeMcu s v j l temp) (decodeMcu s v j l temp)
  | [], temp => by unfold Zune.decodeMcu; keep
  | pos :: rest, temp => by
    have ih := fun t => Keep.decodeMcu s v j rest t
    unfold Zune.decodeMcu
    refine Keep.bind (Keep.decodeComponent _ _ _ _ _) fun temp => Keep.bind Keep.countDown fun _ =>
      Keep.get fun t => ?_
    dsimp only
    cases t.io.bs.marker with
    | none => exact ih _
    | some m =>
      cases m
      case eoi => exact Keep.pure _
      case rst => exact ih _
      all_goals exact Keep.bind (Keep.liftH (Keep.parseMarkerInner _)) fun _ => ih _

theorem Keep.decodeStrip (s : Scan) (temp : List (List I16)) :
    Keep r.t (decodeStrip s temp) (decodeStrip s temp) := by
  unfold Zune.decodeStrip
  refine Keep.foldM (fun temp vj => ?_) _ _
  exact Keep.get fun t => Keep.decodeMcu _ _ _ _ _

theorem Keep.submit (s : Scan) (temp : List (List I16)) :
    Keep r.t (submit s temp) (submit s temp) := by
  intro t v t' e
  unfold Zune.submit at *
  dsimp only at *
  split at e
  · rename_i h; rw [if_pos h]; cases e; rfl
  · cases e

theorem Keep.strips (s : Scan) : ∀ n, Keep r.t (strips s n) (strips s n)
  | 0 => Keep.pure _
  | n + 1 => by
    unfold Zune.strips Zune.strip
    refine Keep.bind (Keep.get fun t => Keep.bind (Keep.ofOut _) fun temp =>
      Keep.bind (Keep.decodeStrip _ _) fun temp => Keep.submit _ _) fun _ => Keep.strips s n

theorem Keep.setUpsampling : Keep r.dec Decoder.setUpsampling Decoder.setUpsampling := by
  intro d v d' e
  unfold Decoder.setUpsampling at *
  dsimp only at *
  split at e
  · rename_i h; rw [if_pos h]; cases e; rfl
  rename_i h1; rw [if_neg h1]
  split at e
  · rename_i h; rw [if_pos h]
    cases hs : setTailUpSampler (chooseHorizontal d.cpu d.options.useUnsafe) d.components <;>
      rw [hs] at e <;> cases e
    rfl
  rename_i h2; rw [if_neg h2]
  split at e
  · rename_i h; rw [if_pos h]
    cases hs : setTailUpSampler .vertical d.components <;> rw [hs] at e <;> cases e
    rfl
  rename_i h3; rw [if_neg h3]
  split at e
  · rename_i h; rw [if_pos h]
    cases hs : setTailUpSampler (chooseHv d.cpu d.options.useUnsafe) d.components <;>
      rw [hs] at e <;> cases e
    rfl
  · cases e

theorem Keep.mcuCounts : Keep r.h mcuCounts mcuCounts := by
  have h1 := Keep.liftDec (Keep.setUpsampling (r := r))
  unfold Zune.mcuCounts
  keep

/-- Strict mode is not turned on. -/
theorem Relax.strict {r : Relax} {o : Options} (h : (r.opts o).getStrictMode = true) :
    o.getStrictMode = true := by
  unfold Options.getStrictMode at *
  simp only [Bool.and_eq_true] at h
  exact h.1

theorem Keep.grayReset (m : Nat × Nat × Nat) : Keep r.h (grayReset m) (grayReset m) := by
  unfold Zune.grayReset
  refine Keep.getDec fun d => Keep.ite (Keep.check Relax.strict ?_) ?_
  · keep
  · keep

theorem Keep.checkTables (d : Decoder) :
    Keep r.h (M.ofOut d.checkTables) (M.ofOut (r.dec d).checkTables) := by
  intro s v s' h
  unfold M.ofOut at *
  simp only [Prod.mk.injEq] at *
  obtain ⟨h1, rfl⟩ := h
  refine ⟨?_, rfl⟩
  unfold Decoder.checkTables at *
  have key : ∀ (l : List Nat) (u : Unit), Out.fold (fun _ i => checkTable d i) u l = .ok v →
      Out.fold (fun _ i => checkTable (r.dec d) i) u l = .ok v := by
    intro l
    induction l with
    | nil => intro u h; exact h
    | cons i l ih =>
      intro u h
      unfold Out.fold at h ⊢
      obtain ⟨x, hx, h⟩ := Out.bind_ok h
      have : checkTable (r.dec d) i = .ok x := by
        unfold checkTable at hx ⊢
        dsimp only
        cases hc : d.components[i]? with
        | none => rw [hc] at hx; cases hx
        | some c =>
          rw [hc] at hx
          dsimp only at hx ⊢
          rcases h1 : d.dcTables[c.dcHuffTable]? with _ | _ | t1 <;> rw [h1] at hx <;>
            first | (cases hx; done) | skip
          dsimp only at hx
          rcases h2 : d.acTables[c.acHuffTable]? with _ | _ | t2 <;> rw [h2] at hx <;>
            first | (cases hx; done) | skip
          rw [fillTables_some h1]
          dsimp only
          rw [fillTables_some h2]
      rw [this]
      exact ih x h
  exact key _ _ h1

theorem Keep.baselineSetup : Keep r.h baselineSetup baselineSetup := by
  unfold Zune.baselineSetup
  exact Keep.getDec fun d => Keep.bind (Keep.ofOut _) fun _ => Keep.bind (Keep.checkTables _) fun _ =>
    Keep.bind Keep.mcuCounts fun m => Keep.bind (Keep.grayReset _) fun m => Keep.getDec fun d =>
    Keep.bind (Keep.idx _ _) fun c => Keep.ite (Keep.panic _ _) (Keep.pure _)

theorem joinPool_ok {x : Out Unit} {jobs : List (Out (List UInt8))} {parts : List (List UInt8)}
    (h : joinPool x jobs = .ok parts) : x = .ok () := by
  unfold joinPool at h
  split at h
  · cases h
  split at h
  · cases h
  · cases h
  · split at h <;> cases h
  · rfl

theorem Keep.decodeBaseline : Keep r.h decodeBaseline decodeBaseline := by
  intro h v h' e
  unfold Zune.decodeBaseline at *
  rcases hb : Zune.baselineSetup h with ⟨_ | _ | _ | _, h1⟩ <;> rw [hb] at e <;> try cases e
  rename_i s
  rw [Keep.baselineSetup (r := r) _ _ _ hb]
  dsimp only at *
  rcases hs : Zune.strips s s.mcuHeight
    { dec := h1.dec, io := { bs := BitStream.new, rd := h1.rd } } with ⟨x, t⟩
  rw [hs] at e
  simp only [Prod.mk.injEq] at e
  obtain ⟨e, rfl⟩ := e
  have hx : x = .ok () := by
    cases hj : joinPool x t.jobs with
    | ok p => exact joinPool_ok hj
    | _ => rw [hj] at e; cases e
  subst hx
  have := Keep.strips (r := r) s _ _ _ _ hs
  rw [this]
  exact Prod.ext e rfl

theorem Keep.getMarker : Keep r.t getMarker getMarker := by
  intro t v t' e
  unfold Zune.getMarker at *
  dsimp only at *
  cases hm : t.io.bs.marker with
  | some m => rw [hm] at e; cases e; rfl
  | none =>
    rw [hm] at e
    rcases hs : scanMarker false t.io.rd with ⟨_ | m, rd⟩ <;> rw [hs] at e <;> cases e
    rfl

theorem Keep.takeMarker : Keep r.t takeMarker takeMarker := by
  intro t v t' e
  unfold Zune.takeMarker at *
  dsimp only at *
  cases hm : t.io.bs.marker with
  | some m => rw [hm] at e; cases e; rfl
  | none => rw [hm] at e; cases e

theorem Keep.progTable (x : Nat → Option HuffmanTable) (l : List (Option HuffmanTable)) (i : Nat) :
    Keep r.t (progTable l i) (progTable (fillTables x l) i) := by
  intro t v t' e
  unfold Zune.progTable at *
  rcases hm : l[i]? with _ | _ | h <;> rw [hm] at e <;> cases e
  rw [fillTables_some hm]

theorem Keep.setPred (k : Nat) (p : I32) : Keep r.t (setPred k p) (setPred k p) := by
  intro t v t' e
  cases e; rfl

theorem Keep.progDc (k : Nat) (c : I16) (table : HuffmanTable) :
    Keep r.t (progDc k c table) (progDc k c table) := by
  unfold Zune.progDc
  refine Keep.get fun t => Keep.bind (Keep.idx _ _) fun comp => Keep.ite ?_ (Keep.liftB _)
  refine Keep.bind (Keep.liftB _) fun vp => ?_
  exact Keep.bind (Keep.setPred _ _) fun _ => Keep.pure _

theorem Keep.progBlock (k mw i j : Nat) (block : List I16) :
    Keep r.t (progBlock k mw i j block) (progBlock k mw i j block) := by
  have h1 := fun x l i => Keep.progTable (r := r) x l i
  have h2 := fun k c t => Keep.progDc (r := r) k c t
  have h3 := fun m => Keep.liftB (r := r) (α := List I16) m
  unfold Zune.progBlock
  keep
  all_goals first | exact h1 _ _ _ | exact h2 _ _ _ | exact h3 _

theorem Keep.progLoop (k mw mh : Nat) : ∀ fuel i j bufs,
    Keep r.t (progLoop k mw mh fuel i j bufs) (progLoop k mw mh fuel i j bufs)
  | 0, i, j, bufs => by unfold Zune.progLoop; keep
  | fuel + 1, i, j, bufs => by
    have ih := fun i j b => Keep.progLoop k mw mh fuel i j b
    unfold Zune.progLoop
    refine Keep.ite (Keep.ite ?_ (ih _ _ _)) (Keep.pure _)
    refine Keep.get fun t => Keep.bind (Keep.idx _ _) fun comp => Keep.bind (Keep.unwrap _) fun buf =>
      Keep.ite ?_ (Keep.panic _ _)
    exact Keep.bind (Keep.progBlock _ _ _ _ _) fun x => Keep.bind Keep.countDown fun _ => ih _ _ _

theorem Keep.interComponent (i j : Nat) (bufs : List (List I16)) (k : Nat) :
    Keep r.t (interComponent i j bufs k) (interComponent i j bufs k) := by
  unfold Zune.interComponent
  refine Keep.get fun t => Keep.bind (Keep.idx _ _) fun n => Keep.ite (Keep.throw _ _) ?_
  refine Keep.bind (Keep.idx _ _) fun comp => Keep.bind (Keep.progTable _ _ _) fun table =>
    Keep.bind (Keep.foldM (fun b vh => ?_) _ _) fun bufs => Keep.bind Keep.countDown fun _ =>
    Keep.pure _
  unfold Zune.interSample
  exact Keep.bind (Keep.idx _ _) fun buf => Keep.bind (Keep.idx _ _) fun c =>
    Keep.bind (Keep.progDc _ _ _) fun v => Keep.pure _

theorem Keep.parseEntropy (bufs : List (List I16)) :
    Keep r.t (parseEntropy bufs) (parseEntropy bufs) := by
  unfold Zune.parseEntropy
  refine Keep.get fun t => Keep.bind (Keep.ofOut _) fun _ => Keep.bind (Keep.modify fun _ => rfl)
    fun _ => Keep.get fun t => Keep.ite (Keep.throw _ _) (Keep.ite (Keep.ite (Keep.throw _ _) ?_)
    (Keep.ite (Keep.throw _ _) ?_))
  · refine Keep.bind (Keep.idx _ _) fun k => Keep.ite (Keep.throw _ _) (Keep.bind (Keep.idx _ _)
      fun comp => ?_)
    exact Keep.progLoop _ _ _ _ _ _ _
  · exact Keep.foldM (fun b ij => Keep.foldM (fun b k => Keep.interComponent _ _ _ _) _ _) _ _

theorem Keep.scanLoop : ∀ fuel seen m bufs,
    Keep r.t (scanLoop fuel seen m bufs) (scanLoop fuel seen m bufs)
  | 0, seen, m, bufs => by unfold Zune.scanLoop; keep
  | fuel + 1, seen, m, bufs => by
    have ih := fun s m b => Keep.scanLoop fuel s m b
    unfold Zune.scanLoop
    cases m
    case dht =>
      exact Keep.bind (Keep.liftH Keep.parseHuffman) fun _ => Keep.bind Keep.getMarker fun m =>
        ih _ _ _
    case sos =>
      refine Keep.bind (Keep.liftH Keep.parseSos) fun _ => Keep.bind (Keep.modify fun _ => rfl)
        fun _ => Keep.bind (Keep.parseEntropy _) fun bufs => Keep.bind Keep.getMarker fun m =>
        Keep.get fun t => Keep.check (fun h => ?_) ?_
      · have : (r.t t).dec.options.getMaxScans = r.scans t.dec.options.getMaxScans := rfl
        have := r.le_scans t.dec.options.getMaxScans
        omega
      · exact Keep.bind (Keep.modify fun _ => rfl) fun _ => ih _ _ _
    all_goals exact Keep.pure _

theorem Keep.progScans (bufs : List (List I16)) : Keep r.t (progScans bufs) (progScans bufs) := by
  unfold Zune.progScans
  exact Keep.bind (Keep.parseEntropy _) fun b => Keep.bind Keep.takeMarker fun m =>
    Keep.get fun t => Keep.scanLoop _ _ _ _

theorem Keep.runScans (bufs : List (List I16)) : Keep r.h (runScans bufs) (runScans bufs) := by
  intro h v h' e
  unfold Zune.runScans at *
  dsimp only at *
  rcases hs : Zune.progScans bufs { dec := h.dec, io := progIo h } with ⟨x, t⟩
  rw [hs] at e
  cases e
  have := Keep.progScans (r := r) bufs _ _ _ hs
  have e : progIo { h with dec := r.dec h.dec } = progIo h := rfl
  dsimp only at *
  rw [e, this]

theorem Keep.finishSetup (mw : Nat) : Keep r.h (finishSetup mw) (finishSetup mw) := by
  unfold Zune.finishSetup
  refine Keep.bind (Keep.liftDec Keep.setUpsampling) fun _ => Keep.getDec fun d =>
    Keep.ite (Keep.check Relax.strict ?_) ?_
  · keep
  · keep

theorem Keep.finishProgressive (bufs : List (List I16)) (mw : Nat) :
    Keep r.h (finishProgressive bufs mw) (finishProgressive bufs mw) := by
  unfold Zune.finishProgressive
  refine Keep.bind (Keep.finishSetup _) fun x => Keep.getDec fun d => Keep.bind (Keep.ofOut _)
    fun ss => Keep.bind (Keep.ofOut _) fun parts => Keep.pure _

theorem Keep.decodeProgressive : Keep r.h decodeProgressive decodeProgressive := by
  unfold Zune.decodeProgressive
  exact Keep.getDec fun d => Keep.bind (Keep.ofOut _) fun _ => Keep.bind (Keep.ofOut _) fun mb =>
    Keep.bind (Keep.runScans _) fun bufs => Keep.finishProgressive _ _

theorem Keep.decodeInternal : Keep r.h decodeInternal decodeInternal := by
  unfold Zune.decodeInternal
  exact Keep.bind Keep.decodeHeaders fun _ => Keep.getDec fun d =>
    Keep.ite Keep.decodeProgressive Keep.decodeBaseline

end
end Zune
