import Verif.Lemmas.Relax
/-! Runs on two states that differ in parts of the decoder which are not looked at. Every outcome,
also an error or a panic, is the same. -/

namespace Zune

/-- Running `m'` on the state changed by some `f a` has the same outcome as running `m`, and the
states afterwards are again related by some `f b`. -/
def Lock {ι σ α : Type} (f : ι → σ → σ) (m m' : M σ α) : Prop :=
  ∀ a s, ∃ b, m' (f a s) = ((m s).1, f b (m s).2)

section
variable {ι σ α β : Type} {f : ι → σ → σ}

theorem Lock.bind {m m' : M σ α} {g g' : α → M σ β} (hm : Lock f m m')
    (hg : ∀ a, Lock f (g a) (g' a)) : Lock f (m >>= g) (m' >>= g') := by
  intro a s
  obtain ⟨b, e⟩ := hm a s
  rw [M.bind_apply, M.bind_apply, e]
  rcases hs : m s with ⟨_ | _ | _ | _, s1⟩
  · exact hg _ b s1
  · exact ⟨b, rfl⟩
  · exact ⟨b, rfl⟩
  · exact ⟨b, rfl⟩

theorem Lock.pure (v : α) : Lock f (Pure.pure v : M σ α) (Pure.pure v) := fun a _ => ⟨a, rfl⟩
theorem Lock.throw (e : DecodeErr) : Lock f (M.throw e : M σ α) (M.throw e) := fun a _ => ⟨a, rfl⟩
theorem Lock.panic (e : Site) : Lock f (M.panic e : M σ α) (M.panic e) := fun a _ => ⟨a, rfl⟩
theorem Lock.diverge : Lock f (M.diverge : M σ α) M.diverge := fun a _ => ⟨a, rfl⟩
theorem Lock.ofOut (o : Out α) : Lock f (M.ofOut o) (M.ofOut o) := fun a _ => ⟨a, rfl⟩
theorem Lock.idx (l : List α) (i : Nat) : Lock f (M.idx l i) (M.idx l i) := by
  intro a s
  refine ⟨a, ?_⟩
  unfold M.idx
  cases l[i]? <;> rfl
theorem Lock.okOr (o : Option α) (e : DecodeErr) : Lock f (M.okOr o e) (M.okOr o e) := by
  intro a s
  refine ⟨a, ?_⟩
  unfold M.okOr
  cases o <;> rfl
theorem Lock.unwrap (o : Option α) : Lock f (M.unwrap o) (M.unwrap o) := by
  intro a s
  refine ⟨a, ?_⟩
  unfold M.unwrap
  cases o <;> rfl
theorem Lock.failIf (c : Bool) (e : DecodeErr) : Lock f (M.failIf c e) (M.failIf c e) := by
  intro a s
  refine ⟨a, ?_⟩
  unfold M.failIf
  cases c <;> rfl
theorem Lock.ite {c : Prop} [Decidable c] {m m' n n' : M σ α} (hm : Lock f m m')
    (hn : Lock f n n') : Lock f (if c then m else n) (if c then m' else n') := by
  by_cases h : c <;> simpa [h]
theorem Lock.foldM {g g' : β → α → M σ β} (h : ∀ b a, Lock f (g b a) (g' b a)) :
    ∀ (l : List α) (b : β), Lock f (M.foldM l b g) (M.foldM l b g')
  | [], b => .pure b
  | a :: l, b => Lock.bind (h b a) fun b' => Lock.foldM h l b'
theorem Lock.get {g g' : σ → M σ α} (h : ∀ a s, Lock f (g s) (g' (f a s))) :
    Lock f (M.get >>= g) (M.get >>= g') := fun a s => h a s a s

/-- When the change is the same before and after. -/
theorem Lock.of_each {m m' : M σ α} (h : ∀ a, Lock (fun (_ : Unit) => f a) m m') : Lock f m m' := by
  intro a s
  obtain ⟨_, e⟩ := h a () s
  exact ⟨a, e⟩
end

section
variable {ι : Type} {k : ι → Decoder → Decoder} {α : Type}

/-- The family of changes on the states of the header parser. -/
abbrev headK (k : ι → Decoder → Decoder) (a : ι) : H → H := onDec (k a)
/-- The family of changes on the states of the scan decoder, with given jobs. -/
abbrev scanK (k : ι → Decoder → Decoder) (l : List (Out (List UInt8))) (a : ι) (t : T) : T :=
  { t with dec := k a t.dec, jobs := l }

theorem Lock.getDec {g g' : Decoder → M H α} (h : ∀ a d, Lock (headK k) (g d) (g' (k a d))) :
    Lock (headK k) (getDec >>= g) (getDec >>= g') := fun a s => h a s.dec a s
theorem Lock.modDec {g g' : Decoder → Decoder} (h : ∀ a d, ∃ b, g' (k a d) = k b (g d)) :
    Lock (headK k) (modDec g) (modDec g') := by
  intro a s
  obtain ⟨b, e⟩ := h a s.dec
  refine ⟨b, ?_⟩
  simp only [Zune.modDec, e]
theorem Lock.readByte : Lock (headK k) readByte readByte := by
  rintro a ⟨d, _ | ⟨b, l⟩⟩ <;> exact ⟨a, rfl⟩
theorem Lock.readU16 (e : DecodeErr) : Lock (headK k) (readU16 e) (readU16 e) := by
  rintro a ⟨d, _ | ⟨b, _ | ⟨c, l⟩⟩⟩ <;> exact ⟨a, rfl⟩
theorem Lock.readExact (n : Nat) (e : DecodeErr) :
    Lock (headK k) (readExact n e) (readExact n e) := by
  rintro a ⟨d, rd⟩
  refine ⟨a, ?_⟩
  unfold Zune.readExact
  by_cases hl : rd.length < n
  · simp only [if_pos hl]
  · simp only [if_neg hl]
theorem Lock.consume (n : Nat) : Lock (headK k) (consume n) (consume n) := fun a _ => ⟨a, rfl⟩

theorem Lock.liftH {l : List (Out (List UInt8))} {m m' : M H α} (h : Lock (headK k) m m') :
    Lock (scanK k l) (liftH m) (liftH m') := by
  intro a t
  obtain ⟨b, e⟩ := h a ⟨t.dec, t.io.rd⟩
  refine ⟨b, ?_⟩
  unfold Zune.liftH
  dsimp only at e ⊢
  rw [e]
end

/-- Proves `Lock` for code made of the basic operations. -/
macro "lock" : tactic => `(tactic| repeat' with_reducible (first
  | exact Lock.pure _ | exact Lock.throw _ | exact Lock.panic _ | exact Lock.diverge
  | exact Lock.idx _ _ | exact Lock.okOr _ _ | exact Lock.unwrap _ | exact Lock.ofOut _
  | exact Lock.failIf _ _ | exact Lock.readByte | exact Lock.readU16 _ | exact Lock.readExact _ _
  | exact Lock.consume _
  | refine Lock.getDec fun _ _ => ?_ | refine Lock.get fun _ _ => ?_
  | refine Lock.bind ?_ fun _ => ?_
  | refine Lock.foldM (fun _ _ => ?_) _ _
  | refine Lock.ite ?_ ?_
  | (refine Lock.modDec fun a d => ⟨a, ?_⟩;
     first | rfl | with_unfolding_all rfl | (dsimp only; split <;> rfl))
  | assumption))

/-! ### Headers without frames -/

/-- Other values for the geometry of the frame. -/
structure Mould where
  hMax : Nat → Nat
  vMax : Nat → Nat
  mcuWidth : Nat
  mcuHeight : Nat
  mcuX : Nat
  mcuY : Nat
  interleaved : Bool
  comp : Component → Component
  comp_id : ∀ c, (comp c).id = c.id
  comp_tables : ∀ c i j, comp { c with dcHuffTable := i, acHuffTable := j } =
    { comp c with dcHuffTable := i, acHuffTable := j }

/-- The decoder with these values. -/
abbrev Mould.dec (g : Mould) (d : Decoder) : Decoder :=
  { d with
    hMax := g.hMax d.hMax, vMax := g.vMax d.vMax
    mcuWidth := g.mcuWidth, mcuHeight := g.mcuHeight, mcuX := g.mcuX, mcuY := g.mcuY
    interleaved := g.interleaved, components := d.components.map g.comp }

theorem map_modify_comm {α : Type} {f g : α → α} (h : ∀ a, g (f a) = f (g a)) :
    ∀ (l : List α) (i : Nat), (l.map f).modify i g = (l.modify i g).map f
  | [], i => by cases i <;> rfl
  | a :: l, 0 => by simp [h]
  | a :: l, i + 1 => by
    simp only [List.map_cons, List.modify_succ_cons, map_modify_comm h l i]

theorem findComponent_map {f : Component → Component} (h : ∀ c, (f c).id = c.id) (id : UInt8)
    (cs : List Component) : ∀ n j, findComponent id (cs.map f) n j = findComponent id cs n j
  | 0, _ => rfl
  | n + 1, j => by
    unfold findComponent
    funext s
    have e : M.idx (cs.map f) j s = ((M.idx cs j s).1.map f, (M.idx cs j s).2) := by
      unfold M.idx
      rw [List.getElem?_map]
      cases cs[j]? <;> rfl
    rw [M.bind_apply, M.bind_apply, e, findComponent_map h id cs n (j + 1)]
    rcases M.idx cs j s with ⟨c | _ | _ | _, s1⟩
    · show (if (f c).id = id then _ else _ : M H Nat) s1 = (if c.id = id then _ else _ : M H Nat) s1
      rw [h]
    all_goals rfl

section
variable {g : Mould}

/-- One shape only. -/
abbrev mouldH (g : Mould) : Unit → H → H := headK fun (_ : Unit) => g.dec

theorem Lock.skipSegment {ι : Type} {k : ι → Decoder → Decoder} :
    Lock (headK k) skipSegment skipSegment := by
  unfold Zune.skipSegment; lock

theorem Lock.parseHuffmanLoop : ∀ fuel len, Lock (mouldH g) (parseHuffmanLoop fuel len)
    (parseHuffmanLoop fuel len)
  | 0, len => by unfold Zune.parseHuffmanLoop; lock
  | fuel + 1, len => by
    have ih := fun l => Lock.parseHuffmanLoop fuel l
    unfold Zune.parseHuffmanLoop
    lock
    all_goals exact ih _

theorem Lock.parseHuffman : Lock (mouldH g) parseHuffman parseHuffman := by
  unfold Zune.parseHuffman
  have ih := fun a b => Lock.parseHuffmanLoop (g := g) a b
  lock
  all_goals exact ih _ _

theorem Lock.parseDqtLoop : ∀ fuel len, Lock (mouldH g) (parseDqtLoop fuel len) (parseDqtLoop fuel len)
  | 0, len => by unfold Zune.parseDqtLoop; lock
  | fuel + 1, len => by
    have ih := fun l => Lock.parseDqtLoop fuel l
    unfold Zune.parseDqtLoop
    lock
    all_goals exact ih _

theorem Lock.parseDqt : Lock (mouldH g) parseDqt parseDqt := by
  unfold Zune.parseDqt
  have ih := fun a b => Lock.parseDqtLoop (g := g) a b
  lock
  all_goals exact ih _ _

theorem Lock.findComponent {ι : Type} {k : ι → Decoder → Decoder} (id : UInt8)
    (cs : List Component) : ∀ n j,
    Lock (headK k) (findComponent id cs n j) (findComponent id cs n j)
  | 0, j => by unfold Zune.findComponent; lock
  | n + 1, j => by
    have ih := Lock.findComponent (k := k) id cs n (j + 1)
    unfold Zune.findComponent
    lock

theorem Lock.sosComponents : ∀ n i seen,
    Lock (mouldH g) (sosComponents n i seen) (sosComponents n i seen)
  | 0, i, seen => by unfold Zune.sosComponents; lock
  | n + 1, i, seen => by
    have ih := fun l => Lock.sosComponents n (i + 1) l
    unfold Zune.sosComponents
    refine Lock.bind Lock.readByte fun id => Lock.getDec fun _ d => ?_
    have e1 : (g.dec d).components.length = d.components.length := by simp
    have e2 : Zune.findComponent id (g.dec d).components (g.dec d).info.components.toNat 0 =
      Zune.findComponent id d.components d.info.components.toNat 0 := findComponent_map g.comp_id _ _ _ _
    rw [e1, e2]
    have h1 := Lock.findComponent (k := fun (_ : Unit) => g.dec) id d.components
      d.info.components.toNat 0
    lock
    all_goals first | exact ih _ | skip
    refine Lock.modDec fun a d => ⟨a, ?_⟩
    have := map_modify_comm (f := g.comp) (g := fun c => { c with
      dcHuffTable := (‹UInt8› >>> 4).toNat, acHuffTable := (‹UInt8› &&& 0xF).toNat })
      (fun c => (g.comp_tables c _ _).symm) d.components ‹Nat›
    dsimp only [Mould.dec]
    rw [this]

theorem Lock.parseSos : Lock (mouldH g) parseSos parseSos := by
  have h1 := fun a b c => Lock.sosComponents (g := g) a b c
  unfold Zune.parseSos
  lock
  all_goals exact h1 _ _ _

theorem Lock.shape (m : Marker) (h0 : m ≠ .sof 0) (h2 : m ≠ .sof 2) :
    Lock (mouldH g) (parseMarkerInner m) (parseMarkerInner m) := by
  unfold parseMarkerInner
  split
  · exact absurd rfl h0
  · exact absurd rfl h2
  · lock
  · exact Lock.parseDqt
  · exact Lock.parseHuffman
  · exact Lock.parseSos
  · lock
  · lock
  · lock
  · lock
  all_goals exact Lock.skipSegment

end

/-! ### Scans -/

/-- Other values for what is only used before a scan. -/
structure Grid where
  mcuWidth : Nat
  mcuHeight : Nat
  mcuX : Nat
  mcuY : Nat
  interleaved : Bool

/-- The decoder with these values. -/
abbrev Grid.dec (g : Grid) (d : Decoder) : Decoder :=
  { d with
    mcuWidth := g.mcuWidth, mcuHeight := g.mcuHeight, mcuX := g.mcuX, mcuY := g.mcuY
    interleaved := g.interleaved }

/-- The grid as a shape. -/
def Grid.shape (g : Grid) : Mould where
  hMax := id
  vMax := id
  mcuWidth := g.mcuWidth
  mcuHeight := g.mcuHeight
  mcuX := g.mcuX
  mcuY := g.mcuY
  interleaved := g.interleaved
  comp := id
  comp_id := fun _ => rfl
  comp_tables := fun _ _ _ => rfl

theorem Grid.shape_dec (g : Grid) : g.shape.dec = g.dec := by
  funext d
  simp [Mould.dec, Grid.dec, Grid.shape]

/-- The grids on the states of the header parser. -/
abbrev gridH : Grid → H → H := headK Grid.dec
/-- The grids on the states of the scan decoder. -/
abbrev gridT (l : List (Out (List UInt8))) : Grid → T → T := scanK Grid.dec l

theorem Lock.readComponents {ι : Type} {k : ι → Decoder → Decoder} :
    ∀ n, Lock (headK k) (readComponents n) (readComponents n)
  | 0 => by unfold Zune.readComponents; lock
  | n + 1 => by
    have ih := Lock.readComponents (k := k) n
    unfold Zune.readComponents
    refine Lock.bind (Lock.readExact _ _) fun t => ?_
    split <;> lock

/-- Another value for `interleaved`. -/
abbrev interDec (b : Bool) (d : Decoder) : Decoder := { d with interleaved := b }

theorem Lock.setupInter : ∀ cs, Lock (headK interDec) (setupComponents cs) (setupComponents cs)
  | [] => by unfold Zune.setupComponents; lock
  | c :: cs => by
    have ih := Lock.setupInter cs
    unfold Zune.setupComponents
    refine Lock.bind (Lock.modDec fun a d => ⟨_, rfl⟩) fun _ => ?_
    lock

/-- The sizes are overwritten, `interleaved` may be kept. -/
theorem Lock.setupComponents : ∀ cs, Lock gridH (setupComponents cs) (setupComponents cs)
  | [] => by unfold Zune.setupComponents; lock
  | c :: cs => by
    intro a s
    unfold Zune.setupComponents
    obtain ⟨F, hF⟩ : ∃ F : Decoder → Decoder, F = fun d =>
      let hMax := max d.hMax c.horizontalSample
      let vMax := max d.vMax c.verticalSample
      let mw := hMax * 8
      let mh := vMax * 8
      { d with
        hMax := hMax, vMax := vMax, mcuWidth := mw, mcuHeight := mh
        mcuX := (d.info.width.toNat + mw - 1) / mw
        mcuY := (d.info.height.toNat + mh - 1) / mh
        interleaved := if hMax ≠ 1 ∨ vMax ≠ 1 then true else d.interleaved } := ⟨_, rfl⟩
    rw [← hF]
    have e : ∃ b, F (a.dec s.dec) = interDec b (F s.dec) := by
      rw [hF]
      exact ⟨_, rfl⟩
    obtain ⟨b, e⟩ := e
    have e1 : Zune.modDec F s = (.ok (), ⟨F s.dec, s.rd⟩) := rfl
    have e2 : Zune.modDec F (gridH a s) = (.ok (), headK interDec b ⟨F s.dec, s.rd⟩) := by
      show (_, (⟨F (a.dec s.dec), s.rd⟩ : H)) = _
      rw [e]
    rw [M.bind_ok e1, M.bind_ok e2]
    have ih := Lock.setupInter cs
    have L : Lock (headK interDec) (do
        let d ← Zune.getDec
        let qt ← M.idx d.qtTables c.quantTableNumber
        let qt ← M.okOr qt .dqt
        let rest ← Zune.setupComponents cs
        Pure.pure ({ c with quantTable := qt, widthStride := c.widthStride * (d.mcuX * 8) } :: rest) :
          M H (List Component)) (do
        let d ← Zune.getDec
        let qt ← M.idx d.qtTables c.quantTableNumber
        let qt ← M.okOr qt .dqt
        let rest ← Zune.setupComponents cs
        Pure.pure ({ c with quantTable := qt, widthStride := c.widthStride * (d.mcuX * 8) } :: rest)) := by
      lock
    obtain ⟨b', e'⟩ := L b ⟨F s.dec, s.rd⟩
    rw [e']
    exact ⟨⟨_, _, _, _, b'⟩, rfl⟩

theorem Lock.parseStartOfFrame (sof : SofMarker) :
    Lock gridH (parseStartOfFrame sof) (parseStartOfFrame sof) := by
  have h1 := fun n => Lock.readComponents (k := Grid.dec) n
  have h2 := fun n => Lock.setupComponents n
  unfold Zune.parseStartOfFrame
  lock
  · exact h1 _
  · exact h2 _

theorem Lock.grid (m : Marker) : Lock gridH (parseMarkerInner m) (parseMarkerInner m) := by
  by_cases h0 : m = .sof 0
  · subst h0
    exact Lock.parseStartOfFrame _
  by_cases h2 : m = .sof 2
  · subst h2
    exact Lock.bind (Lock.modDec fun a _ => ⟨a, rfl⟩) fun _ => Lock.parseStartOfFrame _
  refine Lock.of_each fun a => ?_
  have := Lock.shape (g := a.shape) m h0 h2
  unfold mouldH at this
  rw [Grid.shape_dec] at this
  exact this

section
variable {jl : List (Out (List UInt8))}

theorem Lock.handleRst : Lock (gridT jl) handleRst handleRst := by
  intro a t
  refine ⟨a, ?_⟩
  unfold Zune.handleRst
  dsimp only
  split <;> rfl

theorem Lock.countDown : Lock (gridT jl) countDown countDown := by
  intro a t
  unfold Zune.countDown
  dsimp only
  split
  · exact Lock.handleRst a { t with dec := { t.dec with todo := _ } }
  · exact ⟨a, rfl⟩

theorem Lock.decodeBlock (dc ac : HuffmanTable) (pos : Nat) (block : List I16) :
    Lock (gridT jl) (decodeBlock dc ac pos block) (decodeBlock dc ac pos block) := by
  intro a t
  refine ⟨a, ?_⟩
  unfold Zune.decodeBlock
  dsimp only
  split <;> rfl

theorem Lock.decodeSample (s : Scan) (v j pos : Nat) (dc ac : HuffmanTable) (c : Component)
    (temp : List (List I16)) (vh : Nat × Nat) :
    Lock (gridT jl) (decodeSample s v j pos dc ac c temp vh) (decodeSample s v j pos dc ac c temp vh) := by
  have h1 := fun b => Lock.decodeBlock (jl := jl) dc ac pos b
  unfold Zune.decodeSample
  lock
  all_goals exact h1 _

theorem Lock.decodeComponent (s : Scan) (v j : Nat) (temp : List (List I16)) (pos : Nat) :
    Lock (gridT jl) (decodeComponent s v j temp pos) (decodeComponent s v j temp pos) := by
  unfold Zune.decodeComponent
  lock
  all_goals exact Lock.decodeSample _ _ _ _ _ _ _ _ _

theorem Lock.decodeMcu (s : Scan) (v j : Nat) : ∀ (l : List Nat) (temp : List (List I16)),
    Lock (gridT jl) (decodeMcu s v j l temp) (decodeMcu s v j l temp)
  | [], temp => Lock.pure _
  | pos :: l, temp => by
    have ih := fun t => Lock.decodeMcu s v j l t
    unfold Zune.decodeMcu
    refine Lock.bind (Lock.decodeComponent _ _ _ _ _) fun temp => Lock.bind Lock.countDown fun _ =>
      Lock.get fun a t => ?_
    dsimp only [scanK]
    generalize t.io.bs.marker = mk
    rcases mk with _ | m
    · exact ih _
    · cases m
      all_goals first
        | exact ih _
        | exact Lock.pure _
        | exact Lock.bind (Lock.liftH (Lock.grid _)) fun _ => ih _

theorem Lock.decodeStrip (s : Scan) (temp : List (List I16)) :
    Lock (gridT jl) (decodeStrip s temp) (decodeStrip s temp) := by
  unfold Zune.decodeStrip
  refine Lock.foldM (fun temp p => ?_) _ _
  obtain ⟨v, j⟩ := p
  exact Lock.get fun a t => Lock.decodeMcu _ _ _ _ _

theorem decodeStrip_jobs (s : Scan) (temp : List (List I16)) (t : T) :
    (decodeStrip s temp t).2.jobs = t.jobs := by
  obtain ⟨b, e⟩ := Lock.decodeStrip (jl := t.jobs) s temp
    ⟨t.dec.mcuWidth, t.dec.mcuHeight, t.dec.mcuX, t.dec.mcuY, t.dec.interleaved⟩ t
  have : gridT t.jobs ⟨t.dec.mcuWidth, t.dec.mcuHeight, t.dec.mcuX, t.dec.mcuY,
    t.dec.interleaved⟩ t = t := rfl
  rw [this] at e
  rw [e]

end

theorem decodeMcu_outLen (s : Scan) (n v j : Nat) : ∀ (l : List Nat) (temp : List (List I16)),
    decodeMcu { s with outLen := n } v j l temp = decodeMcu s v j l temp
  | [], _ => rfl
  | pos :: l, temp => by
    have ih := fun temp => decodeMcu_outLen s n v j l temp
    unfold decodeMcu
    simp only [ih]
    rfl

theorem decodeStrip_outLen (s : Scan) (n : Nat) (temp : List (List I16)) :
    decodeStrip { s with outLen := n } temp = decodeStrip s temp := by
  unfold decodeStrip
  simp only [decodeMcu_outLen]

/-- Strips with buffers of two sizes that both have room for them. -/
theorem strips_grid (s : Scan) (L : Nat) : ∀ (n : Nat) (a : Grid) (t : T),
    t.jobs.length + n ≤ s.outLen / s.chunk → t.jobs.length + n ≤ L / s.chunk →
    ∃ b : Grid, strips { s with outLen := L } n { t with dec := a.dec t.dec } =
      ((strips s n t).1, { (strips s n t).2 with dec := b.dec (strips s n t).2.dec })
  | 0, a, t, _, _ => ⟨a, rfl⟩
  | n + 1, a, t, h1, h2 => by
    unfold strips
    have e0 : ∀ (s : Scan) (t : T), strip s t =
        (M.ofOut (allocTemp s t.dec) >>= fun temp => decodeStrip s temp >>= fun temp => submit s temp) t :=
      fun _ _ => rfl
    have ea : allocTemp { s with outLen := L } (a.dec t.dec) = allocTemp s t.dec := rfl
    rw [M.bind_apply, M.bind_apply, e0, e0]
    dsimp only
    rw [ea]
    rcases allocTemp s t.dec with temp | er | p | _
    rotate_left
    · exact ⟨a, rfl⟩
    · exact ⟨a, rfl⟩
    · exact ⟨a, rfl⟩
    have o1 : ∀ t : T, M.ofOut (.ok temp) t = (.ok temp, t) := fun _ => rfl
    rw [M.bind_ok (o1 _), M.bind_ok (o1 _), decodeStrip_outLen]
    have hj := decodeStrip_jobs s temp t
    obtain ⟨b, e⟩ := Lock.decodeStrip (jl := t.jobs) s temp a t
    have e' : decodeStrip s temp { t with dec := a.dec t.dec } =
      ((decodeStrip s temp t).1,
        gridT t.jobs b (decodeStrip s temp t).2) := e
    rw [M.bind_apply, M.bind_apply, e']
    rcases hd : decodeStrip s temp t with ⟨temp' | er | p | _, t1⟩
    rotate_left
    · exact ⟨b, by rw [hd] at hj; rw [← hj]⟩
    · exact ⟨b, by rw [hd] at hj; rw [← hj]⟩
    · exact ⟨b, by rw [hd] at hj; rw [← hj]⟩
    rw [hd] at hj
    dsimp only at hj ⊢
    have hs1 : submit s temp' t1 = (.ok (), { t1 with jobs := t1.jobs ++
        [postProcess s.idct s.color s.comps s.inCs s.outCs s.width temp' (List.replicate s.chunk 0)] }) := by
      unfold submit
      rw [if_pos (by rw [hj]; omega)]
    have hs2 : submit { s with outLen := L } temp' (gridT t.jobs b t1) = (.ok (), { t1 with
        dec := b.dec t1.dec, jobs := t1.jobs ++
        [postProcess s.idct s.color s.comps s.inCs s.outCs s.width temp' (List.replicate s.chunk 0)] }) := by
      unfold submit
      rw [if_pos (by show t.jobs.length < L / s.chunk; omega), hj]
    rw [hs1, hs2]
    refine strips_grid s L n b { t1 with jobs := t1.jobs ++
        [postProcess s.idct s.color s.comps s.inCs s.outCs s.width temp' (List.replicate s.chunk 0)] }
        ?_ ?_
    · rw [List.length_append, hj, List.length_singleton]; omega
    · rw [List.length_append, hj, List.length_singleton]; omega

end Zune
