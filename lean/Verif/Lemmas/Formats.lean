import Verif.Lemmas.Blind
import Verif.Lemmas.NoPanicProg
import Verif.Lemmas.Decode
/-! Decoders that differ in the output colour space. -/

namespace Zune

/-- The decoder with output colour space `Y`, unless the output is grayscale already (as a frame with one
component makes it). -/
abbrev toCs (Y : ColorSpace) (_ : Unit) (d : Decoder) : Decoder :=
  { d with options := { d.options with
      outColorspace := if d.options.outColorspace = .grayscale then .grayscale else Y } }

section
variable {Y : ColorSpace}

abbrev csH (Y : ColorSpace) : Unit → H → H := headK (toCs Y)

theorem cs_parseHuffmanLoop : ∀ fuel len, Lock (csH Y) (parseHuffmanLoop fuel len)
    (parseHuffmanLoop fuel len)
  | 0, len => by unfold Zune.parseHuffmanLoop; lock
  | fuel + 1, len => by
    have ih := fun l => cs_parseHuffmanLoop fuel l
    unfold Zune.parseHuffmanLoop
    lock
    all_goals exact ih _

theorem cs_parseHuffman : Lock (csH Y) parseHuffman parseHuffman := by
  unfold Zune.parseHuffman
  have ih := fun a b => cs_parseHuffmanLoop (Y := Y) a b
  lock
  all_goals exact ih _ _

theorem cs_parseDqtLoop : ∀ fuel len, Lock (csH Y) (parseDqtLoop fuel len) (parseDqtLoop fuel len)
  | 0, len => by unfold Zune.parseDqtLoop; lock
  | fuel + 1, len => by
    have ih := fun l => cs_parseDqtLoop fuel l
    unfold Zune.parseDqtLoop
    lock
    all_goals exact ih _

theorem cs_parseDqt : Lock (csH Y) parseDqt parseDqt := by
  unfold Zune.parseDqt
  have ih := fun a b => cs_parseDqtLoop (Y := Y) a b
  lock
  all_goals exact ih _ _

theorem cs_sosComponents : ∀ n i seen, Lock (csH Y) (sosComponents n i seen) (sosComponents n i seen)
  | 0, i, seen => by unfold Zune.sosComponents; lock
  | n + 1, i, seen => by
    have ih := fun l => cs_sosComponents n (i + 1) l
    unfold Zune.sosComponents
    refine Lock.bind Lock.readByte fun id => Lock.getDec fun _ d => ?_
    have h1 := Lock.findComponent (k := toCs Y) id d.components d.info.components.toNat 0
    dsimp only [toCs]
    lock
    all_goals exact ih _

theorem cs_parseSos : Lock (csH Y) parseSos parseSos := by
  have h1 := fun a b c => cs_sosComponents (Y := Y) a b c
  unfold Zune.parseSos
  lock
  all_goals exact h1 _ _ _

theorem cs_setupComponents : ∀ cs, Lock (csH Y) (setupComponents cs) (setupComponents cs)
  | [] => by unfold Zune.setupComponents; lock
  | c :: cs => by
    have ih := cs_setupComponents cs
    unfold Zune.setupComponents
    refine Lock.bind (Lock.modDec fun a d => ⟨a, rfl⟩) fun _ => ?_
    lock

theorem cs_parseStartOfFrame (sof : SofMarker) :
    Lock (csH Y) (parseStartOfFrame sof) (parseStartOfFrame sof) := by
  have h1 := fun n => Lock.readComponents (k := toCs Y) n
  have h2 := fun n => cs_setupComponents (Y := Y) n
  unfold Zune.parseStartOfFrame
  lock
  refine Lock.ite (Lock.throw _) (Lock.ite (Lock.throw _) (Lock.ite (Lock.throw _)
    (Lock.bind Lock.readByte fun n => Lock.ite (Lock.throw _) (Lock.ite (Lock.throw _)
      (Lock.bind (Lock.modDec fun a d => ⟨a, ?_⟩) fun _ => ?_)))))
  · split <;> rfl
  · lock
    · exact h1 _
    · exact h2 _

theorem cs_inner (m : Marker) : Lock (csH Y) (parseMarkerInner m) (parseMarkerInner m) := by
  unfold parseMarkerInner
  split
  · exact cs_parseStartOfFrame _
  · exact Lock.bind (Lock.modDec fun a _ => ⟨a, rfl⟩) fun _ => cs_parseStartOfFrame _
  · lock
  · exact cs_parseDqt
  · exact cs_parseHuffman
  · exact cs_parseSos
  · lock
  · lock
  · lock
  · lock
  all_goals exact Lock.skipSegment

theorem cs_headerStep (last m : UInt8) (n : Nat) : Lock (csH Y) (headerStep last n m) (headerStep last n m) := by
  have h1 := fun m => cs_inner (Y := Y) m
  have h2 := Lock.skipSegment (k := toCs Y)
  unfold headerStep
  refine Lock.ite ?_ ?_
  · cases Marker.fromU8 m
    · lock
    · refine Lock.bind (h1 _) fun _ => ?_
      split <;> lock
  · lock

theorem cs_headerLoop : ∀ fuel last n, Lock (csH Y) (headerLoop fuel last n) (headerLoop fuel last n)
  | 0, last, n => by unfold headerLoop; lock
  | fuel + 1, last, n => by
    have ih := fun a b => cs_headerLoop fuel a b
    have h1 := fun a b c => cs_headerStep (Y := Y) a b c
    unfold headerLoop
    refine Lock.bind Lock.readByte fun m => Lock.bind (h1 _ _ _) fun o => ?_
    cases o with
    | none => lock
    | some c =>
      refine Lock.getDec fun a d => ?_
      exact Lock.ite (Lock.throw _) (ih _ _)

theorem cs_decodeHeaders : Lock (csH Y) decodeHeaders decodeHeaders := by
  have h1 := fun a b c => cs_headerLoop (Y := Y) a b c
  intro a s
  unfold decodeHeaders
  exact Lock.bind (Lock.readU16 _) (fun v => Lock.ite (Lock.throw _) (h1 _ _ _)) a s
end

/-! ### Runs with different results -/

/-- Where `m` returns a value or an error, `m'` does the same on the states changed by `f`, with a value
related by `V`. Nothing is said where `m` panics. -/
def Follow {σ α β : Type} (f : σ → σ) (V : α → β → Prop) (m : M σ α) (m' : M σ β) : Prop :=
  ∀ s, match m s with
    | (.ok a, s1) => ∃ b, m' (f s) = (.ok b, f s1) ∧ V a b
    | (.err e, s1) => m' (f s) = (.err e, f s1)
    | _ => True

section
variable {σ α β γ δ : Type} {f : σ → σ}

theorem Follow.bind {V : α → β → Prop} {W : γ → δ → Prop} {m : M σ α} {m' : M σ β} {g : α → M σ γ}
    {g' : β → M σ δ} (hm : Follow f V m m') (hg : ∀ a b, V a b → Follow f W (g a) (g' b)) :
    Follow f W (m >>= g) (m' >>= g') := by
  intro s
  have h := hm s
  rw [M.bind_apply]
  rcases hs : m s with ⟨a | e | _ | _, s1⟩ <;> rw [hs] at h
  · obtain ⟨b, e, hv⟩ := h
    rw [M.bind_ok e]
    exact hg a b hv s1
  · show (m' >>= g') (f s) = _
    rw [M.bind_apply, h]
  · trivial
  · trivial

theorem Follow.of_lock {m m' : M σ α} (h : Lock (fun (_ : Unit) => f) m m') : Follow f Eq m m' := by
  intro s
  obtain ⟨_, he⟩ := h () s
  rcases hs : m s with ⟨a | e | _ | _, s1⟩ <;> rw [hs] at he
  · exact ⟨a, he, rfl⟩
  · exact he
  · trivial
  · trivial

theorem Follow.pure {V : α → β → Prop} {a : α} {b : β} (h : V a b) :
    Follow f V (Pure.pure a) (Pure.pure b) := fun _ => ⟨b, rfl, h⟩

theorem Follow.throw {V : α → β → Prop} (e : DecodeErr) : Follow f V (M.throw e) (M.throw e) := fun _ => rfl

theorem Follow.panic {V : α → β → Prop} (p : Site) (m' : M σ β) : Follow f V (M.panic p) m' := fun _ => trivial

theorem Follow.get {V : α → β → Prop} {g : σ → M σ α} {g' : σ → M σ β}
    (h : ∀ s, Follow f V (g s) (g' (f s))) : Follow f V (M.get >>= g) (M.get >>= g') := fun s => h s s

theorem Follow.ite {V : α → β → Prop} {c : Prop} [Decidable c] {m n : M σ α} {m' n' : M σ β}
    (hm : c → Follow f V m m') (hn : ¬ c → Follow f V n n') :
    Follow f V (if c then m else n) (if c then m' else n') := by
  by_cases h : c
  · rw [if_pos h, if_pos h]
    exact hm h
  · rw [if_neg h, if_neg h]
    exact hn h

theorem Follow.foldM {V : α → β → Prop} {g : α → γ → M σ α} {g' : β → γ → M σ β}
    (h : ∀ a b c, V a b → Follow f V (g a c) (g' b c)) :
    ∀ (l : List γ) {a : α} {b : β}, V a b → Follow f V (M.foldM l a g) (M.foldM l b g')
  | [], _, _, hv => Follow.pure hv
  | c :: l, _, _, hv => Follow.bind (h _ _ c hv) fun _ _ hv' => Follow.foldM h l hv'

theorem Follow.refl (m : M σ α) : Follow (fun s : σ => s) Eq m m := by
  intro s
  rcases m s with ⟨_ | _ | _ | _, _⟩
  · exact ⟨_, rfl, rfl⟩
  · rfl
  · trivial
  · trivial
end

/-! ### Blocks -/

/-- Lists of the same length. -/
def SameLen (a b : List I16) : Prop := a.length = b.length

theorem follow_setBlock {b b' : List I16} (h : SameLen b b') (i : Nat) (v : I16) :
    Follow (fun s : B => s) SameLen (setBlock b i v) (setBlock b' i v) := by
  intro s
  unfold setBlock
  by_cases hi : i < b.length
  · rw [if_pos hi, if_pos (by rw [← h]; exact hi)]
    exact ⟨_, rfl, by unfold SameLen at *; simpa using h⟩
  · rw [if_neg hi]
    trivial

/-- The contents of the block do not matter for the bits that are read. -/
theorem follow_acLoop (t : HuffmanTable) (lu : List I16) : ∀ fuel pos {b b' : List I16}, SameLen b b' →
    Follow (fun s : B => s) SameLen (acLoop t lu fuel pos b) (acLoop t lu fuel pos b')
  | 0, pos, b, b', h => by
    unfold acLoop
    exact Follow.ite (fun _ _ => trivial) fun _ => Follow.pure h
  | fuel + 1, pos, b, b', h => by
    have ih := fun p {x x' : List I16} (hx : SameLen x x') => follow_acLoop t lu fuel p hx
    unfold acLoop
    refine Follow.ite (fun _ => ?_) fun _ => Follow.pure h
    refine Follow.bind (Follow.refl _) fun _ _ _ => Follow.get fun s => ?_
    refine Follow.bind (Follow.refl _) fun fast _ e => ?_
    subst e
    refine Follow.bind (Follow.refl _) fun entry _ e => ?_
    subst e
    refine Follow.ite (fun _ => ?_) fun _ => ?_
    · refine Follow.bind (Follow.refl _) fun i _ e => ?_
      subst e
      refine Follow.bind (follow_setBlock h _ _) fun x x' hx => ?_
      exact Follow.bind (Follow.refl _) fun _ _ _ => ih _ hx
    · refine Follow.bind (Follow.refl _) fun sym _ e => ?_
      subst e
      refine Follow.ite (fun _ => ?_) fun _ => Follow.ite (fun _ => Follow.pure h) fun _ => ih _ h
      refine Follow.bind (Follow.refl _) fun bits _ e => ?_
      subst e
      refine Follow.bind (Follow.refl _) fun i _ e => ?_
      subst e
      exact Follow.bind (follow_setBlock h _ _) fun x x' hx => ih _ hx

theorem follow_decodeAc (t : HuffmanTable) (p : I32) {b b' : List I16} (h : SameLen b b') :
    Follow (fun s : B => s) SameLen (decodeAc t p b) (decodeAc t p b') := by
  unfold decodeAc
  refine Follow.bind (Follow.refl _) fun lu _ e => ?_
  subst e
  exact Follow.bind (follow_setBlock h _ _) fun x x' hx => follow_acLoop _ _ _ _ hx

/-! ### Strips -/

section
variable {Y : ColorSpace} {l : List (Out (List UInt8))}

/-- The change of the states of the scan decoder, with jobs `l`. -/
abbrev csT (Y : ColorSpace) (l : List (Out (List UInt8))) (t : T) : T :=
  { t with dec := toCs Y () t.dec, jobs := l }

theorem cs_handleRst : Lock (fun (_ : Unit) => csT Y l) handleRst handleRst := by
  intro a t
  refine ⟨a, ?_⟩
  unfold Zune.handleRst
  dsimp only
  split <;> rfl

theorem cs_countDown : Lock (fun (_ : Unit) => csT Y l) countDown countDown := by
  intro a t
  unfold Zune.countDown
  dsimp only
  split
  · exact cs_handleRst a { t with dec := { t.dec with todo := _ } }
  · exact ⟨a, rfl⟩

theorem cs_decodeBlock (dc ac : HuffmanTable) (pos : Nat) (block : List I16) :
    Lock (fun (_ : Unit) => csT Y l) (decodeBlock dc ac pos block) (decodeBlock dc ac pos block) := by
  intro a t
  refine ⟨a, ?_⟩
  unfold Zune.decodeBlock
  dsimp only
  split <;> rfl

theorem follow_decodeBlock (dc ac : HuffmanTable) (pos : Nat) {b b' : List I16} (h : SameLen b b') :
    Follow (csT Y l) SameLen (decodeBlock dc ac pos b) (decodeBlock dc ac pos b') := by
  intro t
  unfold decodeBlock
  dsimp only
  cases t.dec.components[pos]? with
  | none => trivial
  | some c =>
    dsimp only
    unfold decodeMcuBlock
    cases ac.acLookup with
    | none => trivial
    | some lu =>
      dsimp only
      rcases decodeDc dc c.dcPred t.io with ⟨p | _ | _ | _, s1⟩
      · dsimp only
        have h := follow_decodeAc ac p h s1
        rcases hb : decodeAc ac p b s1 with ⟨x | _ | _ | _, s2⟩ <;> rw [hb] at h
        · obtain ⟨x', e, hx⟩ := h
          rw [e]
          exact ⟨x', rfl, hx⟩
        · dsimp only at h ⊢
          rw [h]
        · trivial
        · trivial
      · rfl
      · trivial
      · trivial

/-- The buffers `temp'` are those of `temp` for the first `n` components. -/
def Cut (n : Nat) (temp temp' : List (List I16)) : Prop :=
  ∀ i, temp'[i]? = temp[i]?.map fun x => if i < n then x else []

theorem Cut.set {n : Nat} {temp temp' : List (List I16)} (h : Cut n temp temp') {pos : Nat} (hp : pos < n)
    (x : List I16) : Cut n (temp.set pos x) (temp'.set pos x) := by
  intro i
  by_cases e : pos = i
  · subst e
    rw [List.getElem?_set_self', List.getElem?_set_self', h pos]
    cases temp[pos]? <;> simp [hp]
  · rw [List.getElem?_set_ne e, List.getElem?_set_ne e]
    exact h i

theorem Cut.skip {n : Nat} {temp temp' : List (List I16)} (h : Cut n temp temp') {pos : Nat} (hp : n ≤ pos)
    (x : List I16) : Cut n (temp.set pos x) temp' := by
  intro i
  by_cases e : pos = i
  · subst e
    have hn : ¬ pos < n := by omega
    rw [List.getElem?_set_self', h pos]
    cases temp[pos]? <;> simp [hn]
  · rw [List.getElem?_set_ne e]
    exact h i

theorem three_le_of_ne {c : ColorSpace} (h : c ≠ .grayscale) : 3 ≤ c.numComponents := by
  cases c <;> first | exact absurd rfl h | decide

theorem follow_decodeSample (hY : Y.numComponents ≤ 3) (s : Scan) (v j pos : Nat) (dc ac : HuffmanTable)
    (c : Component) {temp temp' : List (List I16)} (h : Cut Y.numComponents temp temp') (vh : Nat × Nat) :
    Follow (csT Y l) (Cut Y.numComponents) (decodeSample s v j pos dc ac c temp vh)
      (decodeSample s v j pos dc ac c temp' vh) := by
  have hYp := numComponents_pos Y
  unfold decodeSample
  refine Follow.get fun t => ?_
  generalize hX : t.dec.options.outColorspace = X
  have e1 : t.dec.options.getOutColorspace = X := hX
  have e2 : (csT Y l t).dec.options.getOutColorspace = if X = .grayscale then .grayscale else Y := by
    show (if t.dec.options.outColorspace = .grayscale then _ else _) = _
    rw [hX]
  rw [e1, e2]
  have keep : pos < Y.numComponents → Follow (csT Y l) (Cut Y.numComponents)
      (do
        let start := blockStart s c v j vh.1 vh.2
        let buf ← M.unwrap temp[pos]?
        if start + 64 ≤ buf.length then
          let b ← decodeBlock dc ac pos ((buf.drop start).take 64)
          pure (temp.set pos (writeAt buf start b))
        else M.panic .unwrap)
      (do
        let start := blockStart s c v j vh.1 vh.2
        let buf ← M.unwrap temp'[pos]?
        if start + 64 ≤ buf.length then
          let b ← decodeBlock dc ac pos ((buf.drop start).take 64)
          pure (temp'.set pos (writeAt buf start b))
        else M.panic .unwrap) := by
    intro hp
    have := h pos
    rw [this]
    cases hb : temp[pos]? with
    | none => exact fun _ => trivial
    | some buf =>
      dsimp only [Option.map_some]
      rw [if_pos hp]
      refine Follow.bind (V := fun a b => a = buf ∧ b = buf) (fun _ => ⟨buf, rfl, rfl, rfl⟩) ?_
      rintro _ _ ⟨rfl, rfl⟩
      refine Follow.ite (fun _ => ?_) fun _ => Follow.panic _ _
      refine Follow.bind (Follow.of_lock (cs_decodeBlock dc ac pos _)) fun b _ e => ?_
      subst e
      exact Follow.pure (h.set hp _)
  have drop : Follow (csT Y l) (Cut Y.numComponents)
      (do
        let _ ← decodeBlock dc ac pos (List.replicate 64 0)
        pure temp : M T (List (List I16)))
      (do
        let _ ← decodeBlock dc ac pos (List.replicate 64 0)
        pure temp') :=
    Follow.bind (Follow.of_lock (cs_decodeBlock dc ac pos _)) fun _ _ _ => Follow.pure h
  by_cases hg : X = .grayscale
  · rw [if_pos hg, hg]
    refine Follow.ite (fun hm => keep ?_) fun _ => drop
    have : ColorSpace.grayscale.numComponents = 1 := rfl
    omega
  · rw [if_neg hg]
    have h3 := three_le_of_ne hg
    by_cases hp : pos < Y.numComponents
    · rw [if_pos (by omega), if_pos (by omega)]
      exact keep hp
    · rw [if_neg (c := min (Y.numComponents - 1) pos = pos) (by omega)]
      by_cases hm : min (X.numComponents - 1) pos = pos
      · rw [if_pos hm]
        dsimp only
        cases hb : temp[pos]? with
        | none => exact fun _ => trivial
        | some buf =>
          intro t
          rw [M.bind_ok (show M.unwrap (some buf) t = (.ok buf, t) from rfl)]
          by_cases hl : blockStart s c v j vh.1 vh.2 + 64 ≤ buf.length
          · rw [if_pos hl]
            refine Follow.bind (follow_decodeBlock dc ac pos ?_) (fun b b' _ => Follow.pure ?_) t
            · unfold SameLen
              simp
              omega
            · exact h.skip (by omega) _
          · rw [if_neg hl]
            trivial
      · rw [if_neg hm]
        exact drop

theorem follow_decodeComponent (hY : Y.numComponents ≤ 3) (s : Scan) (v j pos : Nat)
    {temp temp' : List (List I16)} (h : Cut Y.numComponents temp temp') :
    Follow (csT Y l) (Cut Y.numComponents) (decodeComponent s v j temp pos)
      (decodeComponent s v j temp' pos) := by
  unfold decodeComponent
  refine Follow.get fun t => ?_
  dsimp only [csT, toCs]
  refine Follow.bind (Follow.of_lock (Lock.idx _ _)) fun c _ e => ?_
  subst e
  refine Follow.bind (Follow.of_lock (Lock.idx _ _)) fun dc _ e => ?_
  subst e
  refine Follow.bind (Follow.of_lock (Lock.okOr _ _)) fun dc _ e => ?_
  subst e
  refine Follow.bind (Follow.of_lock (Lock.idx _ _)) fun ac _ e => ?_
  subst e
  refine Follow.bind (Follow.of_lock (Lock.okOr _ _)) fun ac _ e => ?_
  subst e
  refine Follow.foldM (V := Cut Y.numComponents) (fun a b p hab => ?_) _ h
  exact follow_decodeSample hY s v j pos dc ac c hab p

theorem cs_liftH {m : M H Unit} (h : Lock (csH Y) m m) :
    Lock (fun (_ : Unit) => csT Y l) (liftH m) (liftH m) := Lock.liftH (k := toCs Y) h

theorem follow_decodeMcu (hY : Y.numComponents ≤ 3) (s : Scan) (v j : Nat) : ∀ (ps : List Nat)
    {temp temp' : List (List I16)}, Cut Y.numComponents temp temp' →
    Follow (csT Y l) (Cut Y.numComponents) (decodeMcu s v j ps temp) (decodeMcu s v j ps temp')
  | [], _, _, h => Follow.pure h
  | pos :: ps, temp, temp', h => by
    have ih := fun {x x' : List (List I16)} (hx : Cut Y.numComponents x x') =>
      follow_decodeMcu hY s v j ps hx
    unfold decodeMcu
    refine Follow.bind (follow_decodeComponent hY _ _ _ _ h) fun x x' hx =>
      Follow.bind (Follow.of_lock cs_countDown) fun _ _ _ => Follow.get fun t => ?_
    dsimp only [csT]
    generalize t.io.bs.marker = mk
    rcases mk with _ | m
    · exact ih hx
    · cases m
      all_goals first
        | exact ih hx
        | exact Follow.pure hx
        | exact Follow.bind (Follow.of_lock (cs_liftH (cs_inner _))) fun _ _ _ => ih hx

theorem follow_decodeStrip (hY : Y.numComponents ≤ 3) (s : Scan) {temp temp' : List (List I16)}
    (h : Cut Y.numComponents temp temp') :
    Follow (csT Y l) (Cut Y.numComponents) (decodeStrip s temp) (decodeStrip s temp') := by
  unfold decodeStrip
  refine Follow.foldM (fun a b p h => ?_) _ h
  obtain ⟨v, j⟩ := p
  exact Follow.get fun t => follow_decodeMcu hY _ _ _ _ h

theorem cut_allocTemp (hY : Y.numComponents ≤ 3) (s : Scan) (d : Decoder) {temp : List (List I16)}
    (h : allocTemp s d = .ok temp) :
    ∃ temp', allocTemp s (toCs Y () d) = .ok temp' ∧ Cut Y.numComponents temp temp' := by
  have hYp := numComponents_pos Y
  generalize hX : d.options.outColorspace = X
  have e1 : d.options.getOutColorspace = X := hX
  have e2 : (toCs Y () d).options.getOutColorspace = if X = .grayscale then .grayscale else Y := by
    show (if d.options.outColorspace = .grayscale then _ else _) = _
    rw [hX]
  unfold allocTemp at h ⊢
  rw [e1] at h
  rw [e2]
  dsimp only at h ⊢
  split at h
  · cases h
  cases h
  have hle : (if X = .grayscale then ColorSpace.grayscale else Y).numComponents ≤ 3 := by
    split
    · decide
    · exact hY
  rw [if_neg (by omega)]
  refine ⟨_, rfl, fun i => ?_⟩
  rw [List.getElem?_map, List.getElem?_map, Option.map_map]
  by_cases hi : i < 3
  · rw [List.getElem?_range hi]
    simp only [Option.map_some, Function.comp_apply]
    cases d.components[i]? with
    | none => simp
    | some c =>
      dsimp only
      by_cases hg : X = .grayscale
      · rw [if_pos hg, hg]
        have : ColorSpace.grayscale.numComponents = 1 := rfl
        rw [this]
        by_cases h0 : i = 0
        · rw [if_pos (c := i < Y.numComponents) (by omega)]
        · rw [if_neg (by omega)]
          simp
      · rw [if_neg hg]
        have h3 := three_le_of_ne hg
        by_cases hp : i < Y.numComponents
        · rw [if_pos (by omega), if_pos hp, if_pos (by omega)]
        · rw [if_neg (by omega), if_neg hp]
  · rw [List.getElem?_eq_none (by simpa using hi)]
    rfl

/-- The scan with other output buffers. -/
abbrev csScan (s : Scan) (Y : ColorSpace) (n k : Nat) : Scan := { s with outCs := Y, outLen := n, chunk := k }

theorem decodeMcu_cs (s : Scan) (Z : ColorSpace) (n k v j : Nat) : ∀ (l : List Nat) (temp : List (List I16)),
    decodeMcu (csScan s Z n k) v j l temp = decodeMcu s v j l temp
  | [], _ => rfl
  | pos :: l, temp => by
    have ih := fun temp => decodeMcu_cs s Z n k v j l temp
    unfold decodeMcu
    simp only [ih]
    rfl

theorem decodeStrip_cs (s : Scan) (Z : ColorSpace) (n k : Nat) (temp : List (List I16)) :
    decodeStrip (csScan s Z n k) temp = decodeStrip s temp := by
  unfold decodeStrip
  simp only [decodeMcu_cs]

/-- The job of a strip. -/
abbrev jobOf (s : Scan) (temp : List (List I16)) : Out (List UInt8) :=
  postProcess s.idct s.color s.comps s.inCs s.outCs s.width temp (List.replicate s.chunk 0)

open M (wp wp_bind wp_mono wp_pure wp_throw wp_idx wp_idx_of wp_okOr wp_ofOut wp_failIf wp_ite_of
  wp_diverge wp_panic wp_unwrap wp_get wp_modify)

/-- Strips of a scan, for two output colour spaces: the same outcome, and jobs on the same coefficients. -/
theorem follow_strips (hY : Y.numComponents ≤ 3) {s s' : Scan} {Z : ColorSpace} {n' k' : Nat}
    (hs' : s' = csScan s Z n' k') {d0 : Decoder} {rd0 : List UInt8}
    (h3 : Three d0) (hn : NoSof rd0) (hu : UnitsFit s d0)
    (hc : d0.inputColorspace.numComponents ≤ d0.components.length) (hj : StripJobs s d0)
    (hq : s'.outLen / s'.chunk = s.outLen / s.chunk) {R : Out (List UInt8) → Out (List UInt8) → Prop}
    (hR : ∀ temp temp', StripBufs s d0 temp → Cut Y.numComponents temp temp' →
      R (jobOf s temp) (jobOf s' temp')) (n : Nat) :
    ∀ {t : T} {l : List (Out (List UInt8))}, NI d0 rd0 t → List.Forall₂ R t.jobs l →
    t.jobs.length + n ≤ s.outLen / s.chunk →
    ∃ l', strips s' n (csT Y l t) = ((strips s n t).1, csT Y l' (strips s n t).2) ∧
      List.Forall₂ R (strips s n t).2.jobs l' ∧ JobsOk (strips s n t).2 ∧ M.Returns (strips s n t).1 := by
  induction n with
  | zero =>
    intro t l h hr _
    exact ⟨l, rfl, hr, h.jobs, Or.inl ⟨_, rfl⟩⟩
  | succ n ih =>
    intro t l h hr hroom
    obtain ⟨temp, ha, hb⟩ := allocTemp_bufs (s := s) h3 h.dec
    obtain ⟨temp', ha', hcut⟩ := cut_allocTemp hY s t.dec ha
    have ha'' : allocTemp s' (toCs Y () t.dec) = .ok temp' := by
      rw [hs', ← ha']
      rfl
    have hst := wpN_decodeStrip h3 hn hu hc hb h
    have hjobs := decodeStrip_jobs s temp t
    have hfol := follow_decodeStrip (Y := Y) (l := l) hY s hcut t
    have e0 : ∀ (s : Scan) (t : T), strip s t =
        (M.ofOut (allocTemp s t.dec) >>= fun temp => decodeStrip s temp >>= fun temp => submit s temp) t :=
      fun _ _ => rfl
    have o1 : ∀ (x : List (List I16)) (t : T), M.ofOut (.ok x) t = (.ok x, t) := fun _ _ => rfl
    have e1 : strip s t = (decodeStrip s temp >>= fun temp => submit s temp) t := by
      rw [e0, ha, M.bind_ok (o1 _ _)]
    have e2 : strip s' (csT Y l t) = (decodeStrip s temp' >>= fun temp => submit s' temp) (csT Y l t) := by
      rw [e0]
      show (M.ofOut (allocTemp s' (toCs Y () t.dec)) >>= _) _ = _
      rw [ha'', M.bind_ok (o1 _ _), hs', decodeStrip_cs]
    unfold strips
    rw [M.bind_apply, M.bind_apply, e1, e2, M.bind_apply, M.bind_apply]
    unfold wpN wp at hst
    rcases hr1 : decodeStrip s temp t with ⟨x | er | _ | _, t1⟩ <;> rw [hr1] at hst hfol hjobs
    rotate_left
    · dsimp only at hst hfol hjobs ⊢
      rw [hfol]
      exact ⟨l, rfl, by rw [hjobs]; exact hr, hst, Or.inr ⟨_, rfl⟩⟩
    · exact hst.elim
    · exact hst.elim
    obtain ⟨x', ex, hx⟩ := hfol
    rw [ex]
    dsimp only at hst hjobs ⊢
    have hlen : l.length = t.jobs.length := hr.length_eq.symm
    have hs1 : submit s x t1 = (.ok (), { t1 with jobs := t1.jobs ++ [jobOf s x] }) := by
      unfold submit
      rw [if_pos (by rw [hjobs]; omega)]
    have hs2 : submit s' x' (csT Y l t1) = (.ok (), csT Y (l ++ [jobOf s' x'])
        { t1 with jobs := t1.jobs ++ [jobOf s x] }) := by
      unfold submit
      rw [if_pos (by show l.length < s'.outLen / s'.chunk; rw [hq, hlen]; omega)]
    rw [hs1, hs2]
    dsimp only
    refine ih ⟨hst.1.dec, hst.1.rd, hst.1.marker, hst.1.se, ?_⟩ ?_ ?_
    · intro j hjm
      rcases List.mem_append.1 hjm with hm | hm
      · exact hst.1.jobs j hm
      · rw [List.mem_singleton] at hm
        subst hm
        exact hj x hst.2
    · dsimp only
      rw [hjobs]
      exact List.rel_append hr (.cons (hR _ _ hst.2 hx) .nil)
    · dsimp only
      rw [List.length_append, hjobs, List.length_singleton]
      omega
end

end Zune
