import Verif.Lemmas.Blind
/-! Decoders that differ in the processor or in the option that allows SIMD code, but not in what they use of
it. -/

namespace Zune

/-- The SIMD features that may be used. -/
def simd (cpu : Cpu) (un : Bool) : Bool × Bool := (un && cpu.sse41, un && cpu.avx2)

/-- The decoder with another processor and option, unless that makes a difference. -/
abbrev toSimd (a : Cpu × Bool) (d : Decoder) : Decoder :=
  { d with
    cpu := if simd a.1 a.2 = simd d.cpu d.options.useUnsafe then a.1 else d.cpu
    options := { d.options with
      useUnsafe := if simd a.1 a.2 = simd d.cpu d.options.useUnsafe then a.2 else d.options.useUnsafe } }

theorem simd_same {a : Cpu × Bool} {c : Cpu} {u : Bool} :
    simd (if simd a.1 a.2 = simd c u then a.1 else c) (if simd a.1 a.2 = simd c u then a.2 else u) = simd c u := by
  by_cases h : simd a.1 a.2 = simd c u
  · rw [if_pos h, if_pos h, h]
  · rw [if_neg h, if_neg h]

theorem chooseHorizontal_same {c c' : Cpu} {u u' : Bool} (h : simd c u = simd c' u') :
    chooseHorizontal c u = chooseHorizontal c' u' := by
  unfold chooseHorizontal
  rw [show (u && c.sse41) = (u' && c'.sse41) from congrArg Prod.fst h]

theorem chooseHv_same {c c' : Cpu} {u u' : Bool} (h : simd c u = simd c' u') : chooseHv c u = chooseHv c' u' := by
  unfold chooseHv
  rw [show (u && c.avx2) = (u' && c'.avx2) from congrArg Prod.snd h]

theorem chooseIdct_same {c c' : Cpu} {u u' : Bool} (h : simd c u = simd c' u') :
    chooseIdct c u = chooseIdct c' u' := by
  unfold chooseIdct
  rw [show (u && c.avx2) = (u' && c'.avx2) from congrArg Prod.snd h]

theorem chooseColor_same {c c' : Cpu} {u u' : Bool} (h : simd c u = simd c' u') (cs : ColorSpace) :
    chooseColor c cs u = chooseColor c' cs u' := by
  unfold chooseColor
  rw [show (u && c.avx2) = (u' && c'.avx2) from congrArg Prod.snd h,
    show (u && c.sse41) = (u' && c'.sse41) from congrArg Prod.fst h]

abbrev sdH : Cpu × Bool → H → H := headK toSimd
abbrev sdT : Cpu × Bool → T → T := blindT toSimd

theorem sd_parseHuffmanLoop : ∀ fuel len, Lock sdH (parseHuffmanLoop fuel len)
    (parseHuffmanLoop fuel len)
  | 0, len => by unfold Zune.parseHuffmanLoop; lock
  | fuel + 1, len => by
    have ih := fun l => sd_parseHuffmanLoop fuel l
    unfold Zune.parseHuffmanLoop
    lock
    all_goals exact ih _

theorem sd_parseHuffman : Lock sdH parseHuffman parseHuffman := by
  unfold Zune.parseHuffman
  have ih := fun a b => sd_parseHuffmanLoop a b
  lock
  all_goals exact ih _ _

theorem sd_parseDqtLoop : ∀ fuel len, Lock sdH (parseDqtLoop fuel len) (parseDqtLoop fuel len)
  | 0, len => by unfold Zune.parseDqtLoop; lock
  | fuel + 1, len => by
    have ih := fun l => sd_parseDqtLoop fuel l
    unfold Zune.parseDqtLoop
    lock
    all_goals exact ih _

theorem sd_parseDqt : Lock sdH parseDqt parseDqt := by
  unfold Zune.parseDqt
  have ih := fun a b => sd_parseDqtLoop a b
  lock
  all_goals exact ih _ _

theorem sd_sosComponents : ∀ n i seen, Lock sdH (sosComponents n i seen) (sosComponents n i seen)
  | 0, i, seen => by unfold Zune.sosComponents; lock
  | n + 1, i, seen => by
    have ih := fun l => sd_sosComponents n (i + 1) l
    unfold Zune.sosComponents
    refine Lock.bind Lock.readByte fun id => Lock.getDec fun _ d => ?_
    have h1 := Lock.findComponent (k := toSimd) id d.components d.info.components.toNat 0
    dsimp only [toSimd]
    lock
    all_goals exact ih _

theorem sd_parseSos : Lock sdH parseSos parseSos := by
  have h1 := fun a b c => sd_sosComponents a b c
  unfold Zune.parseSos
  lock
  all_goals exact h1 _ _ _

theorem sd_setupComponents : ∀ cs, Lock sdH (setupComponents cs) (setupComponents cs)
  | [] => by unfold Zune.setupComponents; lock
  | c :: cs => by
    have ih := sd_setupComponents cs
    unfold Zune.setupComponents
    refine Lock.bind (Lock.modDec fun a d => ⟨a, rfl⟩) fun _ => ?_
    lock

theorem sd_parseStartOfFrame (sof : SofMarker) :
    Lock sdH (parseStartOfFrame sof) (parseStartOfFrame sof) := by
  have h1 := fun n => Lock.readComponents (k := toSimd) n
  have h2 := fun n => sd_setupComponents n
  unfold Zune.parseStartOfFrame
  lock
  refine Lock.ite (Lock.throw _) (Lock.ite (Lock.throw _) (Lock.ite (Lock.throw _)
    (Lock.bind Lock.readByte fun n => Lock.ite (Lock.throw _) (Lock.ite (Lock.throw _)
      (Lock.bind (Lock.modDec fun a d => ⟨a, ?_⟩) fun _ => ?_)))))
  · split <;> rfl
  · lock
    · exact h1 _
    · exact h2 _

theorem sd_inner (m : Marker) : Lock sdH (parseMarkerInner m) (parseMarkerInner m) := by
  unfold parseMarkerInner
  split
  · exact sd_parseStartOfFrame _
  · exact Lock.bind (Lock.modDec fun a _ => ⟨a, rfl⟩) fun _ => sd_parseStartOfFrame _
  · lock
  · exact sd_parseDqt
  · exact sd_parseHuffman
  · exact sd_parseSos
  · lock
  · lock
  · lock
  · lock
  all_goals exact Lock.skipSegment

theorem sd_headerStep (last m : UInt8) (n : Nat) : Lock sdH (headerStep last n m) (headerStep last n m) := by
  have h1 := fun m => sd_inner m
  have h2 := Lock.skipSegment (k := toSimd)
  unfold headerStep
  refine Lock.ite ?_ ?_
  · cases Marker.fromU8 m
    · lock
    · refine Lock.bind (h1 _) fun _ => ?_
      split <;> lock
  · lock

theorem sd_headerLoop : ∀ fuel last n, Lock sdH (headerLoop fuel last n) (headerLoop fuel last n)
  | 0, last, n => by unfold headerLoop; lock
  | fuel + 1, last, n => by
    have ih := fun a b => sd_headerLoop fuel a b
    have h1 := fun a b c => sd_headerStep a b c
    unfold headerLoop
    refine Lock.bind Lock.readByte fun m => Lock.bind (h1 _ _ _) fun o => ?_
    cases o with
    | none => lock
    | some c =>
      refine Lock.getDec fun a d => ?_
      exact Lock.ite (Lock.throw _) (ih _ _)

theorem sd_decodeHeaders : Lock sdH decodeHeaders decodeHeaders := by
  have h1 := fun a b c => sd_headerLoop a b c
  intro a s
  unfold decodeHeaders
  exact Lock.bind (Lock.readU16 _) (fun v => Lock.ite (Lock.throw _) (h1 _ _ _)) a s

/-! ### Baseline -/

theorem sd_handleRst : Lock sdT handleRst handleRst := by
  intro a t
  refine ⟨a, ?_⟩
  unfold Zune.handleRst
  dsimp only
  split <;> rfl

theorem sd_countDown : Lock sdT countDown countDown := by
  intro a t
  unfold Zune.countDown
  dsimp only
  split
  · exact sd_handleRst a { t with dec := { t.dec with todo := _ } }
  · exact ⟨a, rfl⟩

theorem sd_decodeBlock (dc ac : HuffmanTable) (pos : Nat) (block : List I16) :
    Lock sdT (decodeBlock dc ac pos block) (decodeBlock dc ac pos block) := by
  intro a t
  refine ⟨a, ?_⟩
  unfold Zune.decodeBlock
  dsimp only
  split <;> rfl

theorem sd_decodeSample (s : Scan) (v j pos : Nat) (dc ac : HuffmanTable) (c : Component)
    (temp : List (List I16)) (vh : Nat × Nat) :
    Lock sdT (decodeSample s v j pos dc ac c temp vh) (decodeSample s v j pos dc ac c temp vh) := by
  have h1 := fun b => sd_decodeBlock dc ac pos b
  unfold Zune.decodeSample
  refine Lock.get fun a t => Lock.ite ?_ ?_
  · refine Lock.bind (Lock.unwrap _) fun buf => Lock.ite ?_ (Lock.panic _)
    exact Lock.bind (h1 _) fun b => Lock.pure _
  · exact Lock.bind (h1 _) fun b => Lock.pure _

theorem sd_decodeComponent (s : Scan) (v j : Nat) (temp : List (List I16)) (pos : Nat) :
    Lock sdT (decodeComponent s v j temp pos) (decodeComponent s v j temp pos) := by
  unfold Zune.decodeComponent
  lock
  all_goals exact sd_decodeSample _ _ _ _ _ _ _ _ _

theorem sd_decodeMcu (s : Scan) (v j : Nat) : ∀ (l : List Nat) (temp : List (List I16)),
    Lock sdT (decodeMcu s v j l temp) (decodeMcu s v j l temp)
  | [], temp => Lock.pure _
  | pos :: l, temp => by
    have ih := fun t => sd_decodeMcu s v j l t
    unfold Zune.decodeMcu
    refine Lock.bind (sd_decodeComponent _ _ _ _ _) fun temp => Lock.bind sd_countDown fun _ =>
      Lock.get fun a t => ?_
    dsimp only [blindT]
    generalize t.io.bs.marker = mk
    rcases mk with _ | m
    · exact ih _
    · cases m
      all_goals first
        | exact ih _
        | exact Lock.pure _
        | exact Lock.bind (Lock.liftH_blind (sd_inner _)) fun _ => ih _

theorem sd_strip (s : Scan) : Lock sdT (strip s) (strip s) := by
  unfold Zune.strip Zune.decodeStrip
  refine Lock.get fun a t => Lock.bind (Lock.ofOut _) fun temp => Lock.bind ?_ fun temp => ?_
  · refine Lock.foldM (fun temp p => ?_) _ _
    obtain ⟨v, j⟩ := p
    exact Lock.get fun a t => sd_decodeMcu _ _ _ _ _
  · intro a t
    refine ⟨a, ?_⟩
    unfold submit
    dsimp only
    split <;> rfl

theorem sd_strips (s : Scan) : ∀ n, Lock sdT (strips s n) (strips s n)
  | 0 => Lock.pure _
  | n + 1 => Lock.bind (sd_strip s) fun _ => sd_strips s n

theorem sd_setUpsampling : Lock sdH (liftDec Decoder.setUpsampling) (liftDec Decoder.setUpsampling) := by
  have key : ∀ (a : Cpu × Bool) (d : Decoder), Decoder.setUpsampling (toSimd a d) =
      ((Decoder.setUpsampling d).1, toSimd a (Decoder.setUpsampling d).2) := by
    intro a d
    unfold Decoder.setUpsampling
    dsimp only
    rw [chooseHorizontal_same simd_same, chooseHv_same simd_same]
    by_cases h1 : d.hMax = d.vMax ∧ d.hMax = 1
    · rw [if_pos h1, if_pos h1]
    rw [if_neg h1, if_neg h1]
    by_cases h2 : d.hMax = 2 ∧ d.vMax = 1
    · rw [if_pos h2, if_pos h2]
      generalize setTailUpSampler _ _ = r
      cases r <;> rfl
    rw [if_neg h2, if_neg h2]
    by_cases h3 : d.hMax = 1 ∧ d.vMax = 2
    · rw [if_pos h3, if_pos h3]
      generalize setTailUpSampler _ _ = r
      cases r <;> rfl
    rw [if_neg h3, if_neg h3]
    by_cases h4 : d.hMax = 2 ∧ d.vMax = 2
    · rw [if_pos h4, if_pos h4]
      generalize setTailUpSampler _ _ = r
      cases r <;> rfl
    rw [if_neg h4, if_neg h4]
  intro a s
  refine ⟨a, ?_⟩
  unfold liftDec
  dsimp only
  rw [key]

theorem sd_baselineSetup : Lock sdH baselineSetup baselineSetup := by
  have h1 := sd_setUpsampling
  unfold baselineSetup
  refine Lock.getDec fun a d => ?_
  refine Lock.bind (Lock.ofOut _) fun _ => Lock.bind (Lock.ofOut _) fun _ => Lock.bind ?_ fun m =>
    Lock.bind ?_ fun m => ?_
  · unfold mcuCounts
    lock
  · unfold grayReset
    refine Lock.getDec fun a d => Lock.ite ?_ (Lock.pure _)
    refine Lock.ite (Lock.throw _) (Lock.ite (Lock.panic _) ?_)
    exact Lock.bind (Lock.modDec fun a d => ⟨a, rfl⟩) fun _ => Lock.pure _
  · refine Lock.getDec fun a d => Lock.bind (Lock.idx _ _) fun c => ?_
    exact Lock.ite (Lock.panic _) (Lock.pure (mkScan m d c))

/-! ### Progressive -/

theorem sd_getMarker : Lock sdT getMarker getMarker := by
  intro a t
  refine ⟨a, ?_⟩
  unfold getMarker
  dsimp only
  cases t.io.bs.marker with
  | some m => rfl
  | none =>
    dsimp only
    rcases scanMarker false t.io.rd with ⟨_ | _, _⟩ <;> rfl

theorem sd_takeMarker : Lock sdT takeMarker takeMarker := by
  intro a t
  refine ⟨a, ?_⟩
  unfold takeMarker
  dsimp only
  cases t.io.bs.marker <;> rfl

theorem sd_progTable (ts : List (Option HuffmanTable)) (i : Nat) :
    Lock sdT (progTable ts i) (progTable ts i) := by
  intro a t
  refine ⟨a, ?_⟩
  unfold progTable
  rcases ts[i]? with _ | _ | _ <;> rfl

theorem sd_setPred (k : Nat) (p : I32) : Lock sdT (setPred k p) (setPred k p) := fun a _ => ⟨a, rfl⟩

theorem sd_liftB {α : Type} (m : M B α) : Lock sdT (liftB m) (liftB m) := fun a _ => ⟨a, rfl⟩

theorem sd_progDc (k : Nat) (c : I16) (table : HuffmanTable) :
    Lock sdT (progDc k c table) (progDc k c table) := by
  unfold progDc
  refine Lock.get fun a t => Lock.bind (Lock.idx _ _) fun comp => Lock.ite ?_ (sd_liftB _)
  refine Lock.bind (sd_liftB _) fun p => ?_
  exact Lock.bind (sd_setPred _ _) fun _ => Lock.pure _

theorem sd_progBlock (k mw i j : Nat) (block : List I16) :
    Lock sdT (progBlock k mw i j block) (progBlock k mw i j block) := by
  unfold progBlock
  refine Lock.get fun a t => Lock.bind (Lock.idx _ _) fun comp => Lock.ite ?_ ?_
  · exact Lock.bind (sd_progTable _ _) fun table => Lock.bind (Lock.idx _ _) fun c =>
      Lock.bind (sd_progDc _ _ _) fun v => Lock.pure _
  · refine Lock.bind (sd_progTable _ _) fun table => Lock.ite ?_ ?_
    · refine Lock.ite (Lock.bind (fun a t => ⟨a, rfl⟩) fun _ => Lock.pure _) ?_
      exact Lock.bind (sd_liftB _) fun b => Lock.pure _
    · exact Lock.bind (sd_liftB _) fun b => Lock.pure _

theorem sd_progLoop (k mw mh : Nat) : ∀ fuel i j bufs,
    Lock sdT (progLoop k mw mh fuel i j bufs) (progLoop k mw mh fuel i j bufs)
  | 0, i, j, bufs => by
    unfold progLoop
    exact Lock.ite Lock.diverge (Lock.pure _)
  | fuel + 1, i, j, bufs => by
    have ih := fun i j bufs => sd_progLoop k mw mh fuel i j bufs
    unfold progLoop
    refine Lock.ite (Lock.ite ?_ (ih _ _ _)) (Lock.pure _)
    refine Lock.get fun a t => Lock.bind (Lock.idx _ _) fun comp => ?_
    refine Lock.bind (Lock.unwrap _) fun buf => Lock.ite ?_ (Lock.panic _)
    refine Lock.bind (sd_progBlock _ _ _ _ _) fun p => ?_
    exact Lock.bind sd_countDown fun _ => ih _ _ _

theorem sd_interSample (i j n : Nat) (comp : Component) (table : HuffmanTable) (bufs : List (List I16))
    (vh : Nat × Nat) : Lock sdT (interSample i j n comp table bufs vh)
      (interSample i j n comp table bufs vh) := by
  unfold interSample
  exact Lock.bind (Lock.idx _ _) fun buf => Lock.bind (Lock.idx _ _) fun c =>
    Lock.bind (sd_progDc _ _ _) fun v => Lock.pure _

theorem sd_interComponent (i j : Nat) (bufs : List (List I16)) (k : Nat) :
    Lock sdT (interComponent i j bufs k) (interComponent i j bufs k) := by
  unfold interComponent
  refine Lock.get fun a t => Lock.bind (Lock.idx _ _) fun n => Lock.ite (Lock.throw _) ?_
  refine Lock.bind (Lock.idx _ _) fun comp => Lock.bind (sd_progTable _ _) fun table => ?_
  refine Lock.bind (Lock.foldM (fun b vh => sd_interSample _ _ _ _ _ _ _) _ _) fun bufs => ?_
  exact Lock.bind sd_countDown fun _ => Lock.pure _

theorem sd_parseEntropy (bufs : List (List I16)) :
    Lock sdT (parseEntropy bufs) (parseEntropy bufs) := by
  unfold parseEntropy
  refine Lock.get fun a t => Lock.bind (Lock.ofOut _) fun _ => Lock.bind (fun a t => ⟨a, rfl⟩) fun _ => ?_
  refine Lock.get fun a t => Lock.ite (Lock.throw _) (Lock.ite ?_ ?_)
  · refine Lock.ite (Lock.throw _) (Lock.bind (Lock.idx _ _) fun k => Lock.ite (Lock.throw _) ?_)
    exact Lock.bind (Lock.idx _ _) fun comp => sd_progLoop _ _ _ _ _ _ _
  · refine Lock.ite (Lock.throw _) (Lock.foldM (fun b p => ?_) _ _)
    exact Lock.foldM (fun b k => sd_interComponent _ _ _ _) _ _

theorem sd_scanLoop : ∀ fuel seen m bufs,
    Lock sdT (scanLoop fuel seen m bufs) (scanLoop fuel seen m bufs)
  | 0, seen, m, bufs => by
    unfold scanLoop
    exact Lock.ite Lock.diverge (Lock.pure _)
  | fuel + 1, seen, m, bufs => by
    have ih := fun s m b => sd_scanLoop fuel s m b
    unfold scanLoop
    cases m
    case eoi => exact Lock.pure _
    case dht =>
      exact Lock.bind (Lock.liftH_blind sd_parseHuffman) fun _ => Lock.bind sd_getMarker fun m => ih _ _ _
    case sos =>
      refine Lock.bind (Lock.liftH_blind sd_parseSos) fun _ => Lock.bind (fun a t => ⟨a, rfl⟩) fun _ => ?_
      refine Lock.bind (sd_parseEntropy _) fun bufs => Lock.bind sd_getMarker fun m => ?_
      refine Lock.get fun a t => Lock.ite (Lock.throw _) ?_
      exact Lock.bind (fun a t => ⟨a, rfl⟩) fun _ => ih _ _ _
    all_goals exact Lock.pure _

theorem sd_progScans (bufs : List (List I16)) : Lock sdT (progScans bufs) (progScans bufs) := by
  unfold progScans
  exact Lock.bind (sd_parseEntropy _) fun bufs => Lock.bind sd_takeMarker fun m =>
    Lock.get fun a t => sd_scanLoop _ _ _ _

theorem sd_finishSetup (n : Nat) : Lock sdH (finishSetup n) (finishSetup n) := by
  unfold finishSetup
  refine Lock.bind sd_setUpsampling fun _ => Lock.getDec fun a s => ?_
  refine Lock.ite (Lock.ite (Lock.throw _) (Lock.ite (Lock.panic _) ?_)) (Lock.pure _)
  exact Lock.bind (fun a s => ⟨a, rfl⟩) fun _ => Lock.pure _


theorem sd_runScans (bufs : List (List I16)) : Lock sdH (runScans bufs) (runScans bufs) := by
  intro a s
  obtain ⟨b, e⟩ := sd_progScans bufs a ⟨s.dec, progIo s, []⟩
  refine ⟨b, ?_⟩
  have e' : progScans bufs ⟨toSimd a s.dec, progIo s, []⟩ = _ := e
  unfold runScans
  dsimp only
  show (((progScans bufs ⟨toSimd a s.dec, progIo s, []⟩).1, _) : Out _ × H) = _
  rw [show progIo (sdH a s) = progIo s from rfl, e']

theorem sd_finishProgressive (bufs : List (List I16)) (mw : Nat) :
    Lock sdH (finishProgressive bufs mw) (finishProgressive bufs mw) := by
  unfold finishProgressive
  refine Lock.bind (sd_finishSetup mw) fun p => Lock.getDec fun a d => ?_
  exact Lock.bind (Lock.ofOut (progStrips d p.1 p.2 bufs)) fun ss => Lock.bind (Lock.ofOut _) fun parts => Lock.pure _

theorem sd_decodeProgressive : Lock sdH decodeProgressive decodeProgressive := by
  unfold decodeProgressive
  refine Lock.getDec fun a d => Lock.bind (Lock.ofOut d.checkComponentDimensions) fun _ => ?_
  refine Lock.bind (Lock.ofOut (progAlloc d)) fun p => ?_
  exact Lock.bind (sd_runScans _) fun bufs => sd_finishProgressive _ _

theorem sd_decodeBaseline : Lock sdH decodeBaseline decodeBaseline := by
  rintro a ⟨d, rd⟩
  obtain ⟨b, e⟩ := sd_baselineSetup a ⟨d, rd⟩
  unfold decodeBaseline
  rw [e]
  rcases baselineSetup ⟨d, rd⟩ with ⟨_ | _ | _ | _, ⟨d1, rd1⟩⟩
  · rename_i s
    dsimp only
    obtain ⟨b', e2⟩ := sd_strips s s.mcuHeight b { dec := d1, io := { bs := BitStream.new, rd := rd1 } }
    have e2' : strips s s.mcuHeight { dec := toSimd b d1, io := { bs := BitStream.new, rd := rd1 } } = _ := e2
    rw [e2']
    exact ⟨b', rfl⟩
  all_goals exact ⟨b, rfl⟩

theorem sd_decodeInternal : Lock sdH decodeInternal decodeInternal := by
  unfold decodeInternal
  exact Lock.bind sd_decodeHeaders fun _ => Lock.getDec fun a d => Lock.ite sd_decodeProgressive sd_decodeBaseline

end Zune
