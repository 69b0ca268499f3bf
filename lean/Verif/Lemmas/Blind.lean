import Verif.Lemmas.Lock
/-! Baseline scans do not look at the contents of the scan header, but for the tables. -/

namespace Zune

/-- A family of changes of the decoder on the states of the scan decoder. -/
abbrev blindT {ι : Type} (k : ι → Decoder → Decoder) (a : ι) (t : T) : T := { t with dec := k a t.dec }

theorem Lock.liftH_blind {ι α : Type} {k : ι → Decoder → Decoder} {m m' : M H α} (h : Lock (headK k) m m') :
    Lock (blindT k) (Zune.liftH m) (Zune.liftH m') := by
  intro a t
  obtain ⟨b, e⟩ := h a ⟨t.dec, t.io.rd⟩
  refine ⟨b, ?_⟩
  unfold Zune.liftH
  dsimp only at e ⊢
  rw [e]

/-- What the header of a scan sets, but for the tables of the components. -/
structure ScanHead where
  numScans : Nat
  zOrder : List Nat
  specStart : Nat
  specEnd : Nat
  succHigh : Nat
  succLow : Nat

/-- The decoder with these values. -/
abbrev ScanHead.dec (a : ScanHead) (d : Decoder) : Decoder :=
  { d with
    numScans := a.numScans, zOrder := a.zOrder, specStart := a.specStart, specEnd := a.specEnd
    succHigh := a.succHigh, succLow := a.succLow }

/-- The values of a decoder. -/
def Decoder.scanHead (d : Decoder) : ScanHead :=
  ⟨d.numScans, d.zOrder, d.specStart, d.specEnd, d.succHigh, d.succLow⟩

abbrev shH : ScanHead → H → H := headK ScanHead.dec
abbrev shT : ScanHead → T → T := blindT ScanHead.dec

theorem sh_parseHuffmanLoop : ∀ fuel len, Lock shH (parseHuffmanLoop fuel len)
    (parseHuffmanLoop fuel len)
  | 0, len => by unfold Zune.parseHuffmanLoop; lock
  | fuel + 1, len => by
    have ih := fun l => sh_parseHuffmanLoop fuel l
    unfold Zune.parseHuffmanLoop
    lock
    all_goals exact ih _

theorem sh_parseHuffman : Lock shH parseHuffman parseHuffman := by
  unfold Zune.parseHuffman
  have ih := fun a b => sh_parseHuffmanLoop a b
  lock
  all_goals exact ih _ _

theorem sh_parseDqtLoop : ∀ fuel len, Lock shH (parseDqtLoop fuel len) (parseDqtLoop fuel len)
  | 0, len => by unfold Zune.parseDqtLoop; lock
  | fuel + 1, len => by
    have ih := fun l => sh_parseDqtLoop fuel l
    unfold Zune.parseDqtLoop
    lock
    all_goals exact ih _

theorem sh_parseDqt : Lock shH parseDqt parseDqt := by
  unfold Zune.parseDqt
  have ih := fun a b => sh_parseDqtLoop a b
  lock
  all_goals exact ih _ _

theorem sh_sosComponents : ∀ n i seen, Lock shH (sosComponents n i seen) (sosComponents n i seen)
  | 0, i, seen => by unfold Zune.sosComponents; lock
  | n + 1, i, seen => by
    have ih := fun l => sh_sosComponents n (i + 1) l
    unfold Zune.sosComponents
    refine Lock.bind Lock.readByte fun id => Lock.getDec fun _ d => ?_
    have h1 := Lock.findComponent (k := ScanHead.dec) id d.components d.info.components.toNat 0
    dsimp only [ScanHead.dec]
    lock
    all_goals first | exact ih _ | skip
    exact Lock.modDec fun a d => ⟨{ a with zOrder := a.zOrder.set _ _ }, rfl⟩

theorem sh_parseSos : Lock shH parseSos parseSos := by
  have h1 := fun a b c => sh_sosComponents a b c
  have m1 : ∀ n : Nat, Lock shH (Zune.modDec fun d => { d with numScans := n })
      (Zune.modDec fun d => { d with numScans := n }) :=
    fun n => Lock.modDec fun a d => ⟨{ a with numScans := n }, rfl⟩
  have m2 : ∀ n : Nat, Lock shH (Zune.modDec fun d => { d with specStart := n })
      (Zune.modDec fun d => { d with specStart := n }) :=
    fun n => Lock.modDec fun a d => ⟨{ a with specStart := n }, rfl⟩
  have m3 : ∀ n : Nat, Lock shH (Zune.modDec fun d => { d with specEnd := n })
      (Zune.modDec fun d => { d with specEnd := n }) :=
    fun n => Lock.modDec fun a d => ⟨{ a with specEnd := n }, rfl⟩
  have m4 : ∀ n : Nat, Lock shH (Zune.modDec fun d => { d with succHigh := n })
      (Zune.modDec fun d => { d with succHigh := n }) :=
    fun n => Lock.modDec fun a d => ⟨{ a with succHigh := n }, rfl⟩
  have m5 : ∀ n : Nat, Lock shH (Zune.modDec fun d => { d with succLow := n })
      (Zune.modDec fun d => { d with succLow := n }) :=
    fun n => Lock.modDec fun a d => ⟨{ a with succLow := n }, rfl⟩
  unfold Zune.parseSos
  refine Lock.bind (Lock.readU16 _) fun ls => Lock.bind Lock.readByte fun ns => Lock.bind (m1 _) fun _ => ?_
  refine Lock.ite (Lock.throw _) (Lock.ite (Lock.throw _) (Lock.getDec fun a d => ?_))
  refine Lock.ite (Lock.throw _) (Lock.bind (h1 _ _ _) fun _ => ?_)
  refine Lock.bind Lock.readByte fun ss => Lock.bind (m2 _) fun _ => ?_
  refine Lock.bind Lock.readByte fun se => Lock.bind (m3 _) fun _ => ?_
  refine Lock.bind Lock.readByte fun ba => Lock.bind (m4 _) fun _ => ?_
  exact Lock.ite (Lock.throw _) (Lock.bind (m5 _) fun _ => Lock.failIf _ _)

theorem sh_setupComponents : ∀ cs, Lock shH (setupComponents cs) (setupComponents cs)
  | [] => by unfold Zune.setupComponents; lock
  | c :: cs => by
    have ih := sh_setupComponents cs
    unfold Zune.setupComponents
    refine Lock.bind (Lock.modDec fun a d => ⟨a, rfl⟩) fun _ => ?_
    lock

theorem sh_parseStartOfFrame (sof : SofMarker) :
    Lock shH (parseStartOfFrame sof) (parseStartOfFrame sof) := by
  have h1 := fun n => Lock.readComponents (k := ScanHead.dec) n
  have h2 := fun n => sh_setupComponents n
  unfold Zune.parseStartOfFrame
  lock
  · exact h1 _
  · exact h2 _

theorem sh_inner (m : Marker) : Lock shH (parseMarkerInner m) (parseMarkerInner m) := by
  unfold parseMarkerInner
  split
  · exact sh_parseStartOfFrame _
  · exact Lock.bind (Lock.modDec fun a _ => ⟨a, rfl⟩) fun _ => sh_parseStartOfFrame _
  · lock
  · exact sh_parseDqt
  · exact sh_parseHuffman
  · exact sh_parseSos
  · lock
  · lock
  · lock
  · lock
  all_goals exact Lock.skipSegment

/-! ### The scan -/

theorem sh_handleRst : Lock shT handleRst handleRst := by
  intro a t
  refine ⟨a, ?_⟩
  unfold Zune.handleRst
  dsimp only
  split <;> rfl

theorem sh_countDown : Lock shT countDown countDown := by
  intro a t
  unfold Zune.countDown
  dsimp only
  split
  · exact sh_handleRst a { t with dec := { t.dec with todo := _ } }
  · exact ⟨a, rfl⟩

theorem sh_decodeBlock (dc ac : HuffmanTable) (pos : Nat) (block : List I16) :
    Lock shT (decodeBlock dc ac pos block) (decodeBlock dc ac pos block) := by
  intro a t
  refine ⟨a, ?_⟩
  unfold Zune.decodeBlock
  dsimp only
  split <;> rfl

theorem sh_decodeSample (s : Scan) (v j pos : Nat) (dc ac : HuffmanTable) (c : Component)
    (temp : List (List I16)) (vh : Nat × Nat) :
    Lock shT (decodeSample s v j pos dc ac c temp vh) (decodeSample s v j pos dc ac c temp vh) := by
  have h1 := fun b => sh_decodeBlock dc ac pos b
  unfold Zune.decodeSample
  lock
  all_goals exact h1 _

theorem sh_decodeComponent (s : Scan) (v j : Nat) (temp : List (List I16)) (pos : Nat) :
    Lock shT (decodeComponent s v j temp pos) (decodeComponent s v j temp pos) := by
  unfold Zune.decodeComponent
  lock
  all_goals exact sh_decodeSample _ _ _ _ _ _ _ _ _

theorem sh_decodeMcu (s : Scan) (v j : Nat) : ∀ (l : List Nat) (temp : List (List I16)),
    Lock shT (decodeMcu s v j l temp) (decodeMcu s v j l temp)
  | [], temp => Lock.pure _
  | pos :: l, temp => by
    have ih := fun t => sh_decodeMcu s v j l t
    unfold Zune.decodeMcu
    refine Lock.bind (sh_decodeComponent _ _ _ _ _) fun temp => Lock.bind sh_countDown fun _ =>
      Lock.get fun a t => ?_
    dsimp only [blindT]
    generalize t.io.bs.marker = mk
    rcases mk with _ | m
    · exact ih _
    · cases m
      all_goals first
        | exact ih _
        | exact Lock.pure _
        | exact Lock.bind (Lock.liftH_blind (sh_inner _)) fun _ => ih _

theorem sh_strip (s : Scan) : Lock shT (strip s) (strip s) := by
  unfold Zune.strip Zune.decodeStrip
  refine Lock.get fun a t => Lock.bind (Lock.ofOut _) fun temp => Lock.bind ?_ fun temp => ?_
  · refine Lock.foldM (fun temp p => ?_) _ _
    obtain ⟨v, j⟩ := p
    exact Lock.get fun a t => sh_decodeMcu _ _ _ _ _
  · intro a t
    refine ⟨a, ?_⟩
    unfold submit
    dsimp only
    split <;> rfl

theorem sh_strips (s : Scan) : ∀ n, Lock shT (strips s n) (strips s n)
  | 0 => Lock.pure _
  | n + 1 => Lock.bind (sh_strip s) fun _ => sh_strips s n

theorem sh_setUpsampling : Lock shH (liftDec Decoder.setUpsampling) (liftDec Decoder.setUpsampling) := by
  have key : ∀ (a : ScanHead) (d : Decoder), Decoder.setUpsampling (a.dec d) =
      ((Decoder.setUpsampling d).1, a.dec (Decoder.setUpsampling d).2) := by
    intro a d
    unfold Decoder.setUpsampling
    dsimp only
    by_cases h1 : d.hMax = d.vMax ∧ d.hMax = 1
    · rw [if_pos h1, if_pos h1]
    rw [if_neg h1, if_neg h1]
    by_cases h2 : d.hMax = 2 ∧ d.vMax = 1
    · rw [if_pos h2, if_pos h2]
      generalize setTailUpSampler _ _ = r
      cases r <;> rfl
    rw [if_neg h2, if_neg h2]
    by_cases h3 : d.hMax = 1 ∧ d.vMax = 2
    · rw [if_pos h3, if_pos h3]
      generalize setTailUpSampler _ _ = r
      cases r <;> rfl
    rw [if_neg h3, if_neg h3]
    by_cases h4 : d.hMax = 2 ∧ d.vMax = 2
    · rw [if_pos h4, if_pos h4]
      generalize setTailUpSampler _ _ = r
      cases r <;> rfl
    rw [if_neg h4, if_neg h4]
  intro a s
  refine ⟨a, ?_⟩
  unfold liftDec
  dsimp only
  rw [key]

theorem sh_baselineSetup : Lock shH baselineSetup baselineSetup := by
  have h1 := sh_setUpsampling
  unfold baselineSetup
  refine Lock.getDec fun a d => ?_
  refine Lock.bind (Lock.ofOut _) fun _ => Lock.bind (Lock.ofOut _) fun _ => Lock.bind ?_ fun m =>
    Lock.bind ?_ fun m => ?_
  · unfold mcuCounts
    lock
  · unfold grayReset
    lock
  · refine Lock.getDec fun a d => Lock.bind (Lock.idx _ _) fun c => ?_
    exact Lock.ite (Lock.panic _) (Lock.pure (mkScan m d c))

/-- The scan header does not matter but for the tables. -/
theorem decodeBaseline_sh (a : ScanHead) (d : Decoder) (rd : List UInt8) :
    (decodeBaseline ⟨a.dec d, rd⟩).1 = (decodeBaseline ⟨d, rd⟩).1 := by
  obtain ⟨b, e⟩ := sh_baselineSetup a ⟨d, rd⟩
  unfold decodeBaseline
  have e' : baselineSetup ⟨a.dec d, rd⟩ = _ := e
  rw [e']
  rcases baselineSetup ⟨d, rd⟩ with ⟨_ | _ | _ | _, ⟨d1, rd1⟩⟩
  · rename_i s
    dsimp only
    obtain ⟨b', e2⟩ := sh_strips s s.mcuHeight b { dec := d1, io := { bs := BitStream.new, rd := rd1 } }
    have e2' : strips s s.mcuHeight { dec := b.dec d1, io := { bs := BitStream.new, rd := rd1 } } = _ := e2
    rw [e2']
    rfl
  all_goals rfl

end Zune
