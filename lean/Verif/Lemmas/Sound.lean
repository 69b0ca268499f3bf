import Verif.Model.Prog
import Verif.Lemmas.Monad
import Verif.Lemmas.Frame
import Verif.Lemmas.Slice
/-! No run reaches an unchecked access outside of a slice, as long as the frame components keep
power-of-two sampling factors: the parts that decode headers and entropy coded data. -/

namespace Zune

section
variable {σ α β : Type} {I : σ → Prop}

/-- From states in `I` the action does not leave a slice, keeps `I` whatever its outcome, and its
result satisfies `R`. -/
def Snd (I : σ → Prop) (m : M σ α) (R : α → Prop) : Prop :=
  ∀ s, I s → (m s).1 ≠ .panic .unsound ∧ I (m s).2 ∧ ∀ a, (m s).1 = .ok a → R a

theorem Snd.bindR {m : M σ α} {g : α → M σ β} {R : α → Prop} {R' : β → Prop} (hm : Snd I m R)
    (hg : ∀ a, R a → Snd I (g a) R') : Snd I (m >>= g) R' := by
  intro s hs
  obtain ⟨h1, h2, h3⟩ := hm s hs
  rw [M.bind_apply]
  rcases e : m s with ⟨o | o | o | o, s'⟩ <;> rw [e] at h1 h2 h3 <;> dsimp only at *
  · exact hg _ (h3 _ rfl) _ h2
  · exact ⟨by simp, h2, fun _ h => by cases h⟩
  · exact ⟨by simpa using h1, h2, fun _ h => by cases h⟩
  · exact ⟨by simp, h2, fun _ h => by cases h⟩

theorem Snd.bind {m : M σ α} {g : α → M σ β} {R' : β → Prop} (hm : Snd I m fun _ => True)
    (hg : ∀ a, Snd I (g a) R') : Snd I (m >>= g) R' := hm.bindR fun a _ => hg a

theorem Snd.mono {m : M σ α} {R R' : α → Prop} (hm : Snd I m R) (h : ∀ a, R a → R' a) :
    Snd I m R' := fun s hs =>
  let ⟨h1, h2, h3⟩ := hm s hs
  ⟨h1, h2, fun a e => h a (h3 a e)⟩

theorem Snd.triv {m : M σ α} {R : α → Prop} (hm : Snd I m R) : Snd I m fun _ => True :=
  hm.mono fun _ _ => trivial

theorem Snd.pureR {R : α → Prop} {a : α} (h : R a) : Snd I (Pure.pure a : M σ α) R :=
  fun _ hs => ⟨by simp, hs, fun _ e => by cases e; exact h⟩
theorem Snd.pure (a : α) : Snd I (Pure.pure a : M σ α) fun _ => True := Snd.pureR trivial
theorem Snd.throw {R : α → Prop} (e : DecodeErr) : Snd I (M.throw e : M σ α) R :=
  fun _ hs => ⟨by simp, hs, fun _ e => by cases e⟩
theorem Snd.panic {R : α → Prop} {p : Site} (h : p ≠ .unsound) : Snd I (M.panic p : M σ α) R :=
  fun _ hs => ⟨by simpa using h, hs, fun _ e => by cases e⟩
theorem Snd.diverge {R : α → Prop} : Snd I (M.diverge : M σ α) R :=
  fun _ hs => ⟨by simp, hs, fun _ e => by cases e⟩
theorem Snd.idx (l : List α) (i : Nat) : Snd I (M.idx l i : M σ α) fun a => l[i]? = some a := by
  intro s hs
  cases h : l[i]? with
  | none => rw [M.idx_none h]; exact ⟨by simp, hs, fun _ e => by cases e⟩
  | some a => rw [M.idx_some h]; exact ⟨by simp, hs, fun _ e => by cases e; rfl⟩
theorem Snd.okOr (o : Option α) (e : DecodeErr) : Snd I (M.okOr o e : M σ α) fun a => o = some a := by
  intro s hs
  cases o with
  | none => exact ⟨by simp [M.okOr], hs, fun _ e => by cases e⟩
  | some a => exact ⟨by simp [M.okOr], hs, fun _ e => by cases e; rfl⟩
theorem Snd.unwrap (o : Option α) : Snd I (M.unwrap o : M σ α) fun a => o = some a := by
  intro s hs
  cases o with
  | none => exact ⟨by simp [M.unwrap], hs, fun _ e => by cases e⟩
  | some a => exact ⟨by simp [M.unwrap], hs, fun _ e => by cases e; rfl⟩
theorem Snd.ofOut {o : Out α} (h : o ≠ .panic .unsound) :
    Snd I (M.ofOut o : M σ α) fun a => o = .ok a :=
  fun _ hs => ⟨h, hs, fun _ e => e⟩
theorem Snd.failIf (c : Bool) (e : DecodeErr) : Snd I (M.failIf c e : M σ Unit) fun _ => True := by
  intro s hs
  cases c <;> exact ⟨by simp [M.failIf], hs, fun _ _ => trivial⟩
theorem Snd.get {R : α → Prop} {g : σ → M σ α} (h : ∀ s, I s → Snd I (g s) R) :
    Snd I (M.get >>= g) R := fun s hs => h s hs s hs
theorem Snd.modify {f : σ → σ} (h : ∀ s, I s → I (f s)) : Snd I (M.modify f) fun _ => True :=
  fun s hs => ⟨by simp, h s hs, fun _ _ => trivial⟩
theorem Snd.ite {c : Prop} [Decidable c] {m n : M σ α} {R : α → Prop} (hm : c → Snd I m R)
    (hn : ¬ c → Snd I n R) : Snd I (if c then m else n) R := by
  split
  · exact hm ‹_›
  · exact hn ‹_›
theorem Snd.foldM {R : β → Prop} {g : β → α → M σ β} (h : ∀ b a, R b → Snd I (g b a) R) :
    ∀ (l : List α) (b : β), R b → Snd I (M.foldM l b g) R
  | [], _, hb => Snd.pureR hb
  | a :: l, b, hb => Snd.bindR (h b a hb) fun b' hb' => Snd.foldM h l b' hb'
end

/-- Proves `Snd` for code made of the basic operations. -/
macro "snd" : tactic => `(tactic| repeat' with_reducible (first
  | assumption
  | exact Snd.pure _ | exact Snd.throw _ | exact Snd.panic (by decide) | exact Snd.diverge
  | exact (Snd.idx _ _).triv | exact (Snd.okOr _ _).triv | exact (Snd.unwrap _).triv
  | exact Snd.failIf _ _
  | refine Snd.get fun _ _ => ?_
  | refine Snd.bind ?_ fun _ => ?_
  | refine Snd.ite (fun _ => ?_) (fun _ => ?_)
  | (refine Snd.modify fun _ _ => ?_; trivial)))

/-! ### The bit reader -/

/-- No condition on the bit reader. -/
abbrev SndB {α : Type} (m : M B α) : Prop := Snd (fun _ => True) m fun _ => True

theorem sndB_intro {α : Type} {m : M B α} (h : ∀ s, (m s).1 ≠ .panic .unsound) : SndB m :=
  fun s _ => ⟨h s, trivial, fun _ _ => trivial⟩

theorem refillBytes_ne : ∀ n s, (refillBytes n s).1 ≠ .panic .unsound
  | 0, s => fun h => by cases h
  | n + 1, s => by
    unfold refillBytes
    cases refillByte s with
    | more s' => exact refillBytes_ne n s'
    | stop s' => exact fun h => by cases h
    | bad s' => exact fun h => by cases h

theorem ne_ite {α β : Type} {c : Prop} [Decidable c] {x y : Out α × β}
    (hx : x.1 ≠ .panic .unsound) (hy : y.1 ≠ .panic .unsound) :
    (if c then x else y).1 ≠ .panic .unsound := by
  by_cases h : c
  · rwa [if_pos h]
  · rwa [if_neg h]

theorem sndB_refill : SndB refill := by
  refine sndB_intro fun s => ?_
  unfold refill
  refine ne_ite ?_ (ne_ite (fun h => by cases h) fun h => by cases h)
  generalize s.rd = rd
  match rd with
  | [] => exact refillBytes_ne 4 s
  | [_] => exact refillBytes_ne 4 s
  | [_, _] => exact refillBytes_ne 4 s
  | [_, _, _] => exact refillBytes_ne 4 s
  | [_, _, _, _] => exact refillBytes_ne 4 s
  | a :: b :: c :: d :: e :: r =>
    exact ne_ite (fun h => by cases h) (refillBytes_ne 4 s)

theorem sndB_refillIfBelow (n : Nat) : SndB (refillIfBelow n) := by
  refine sndB_intro fun s => ?_
  unfold refillIfBelow
  split
  · exact (sndB_refill s trivial).1
  · simp

theorem sndB_getBits (n : Nat) : SndB (getBitsM n) := sndB_intro fun s => by simp [getBitsM]
theorem sndB_getBit : SndB getBitM := sndB_intro fun s => by simp [getBitM]
theorem sndB_setBlock (b : List I16) (i : Nat) (v : I16) :
    Snd (fun _ => True) (setBlock b i v) fun b' => b'.length = b.length := by
  intro s _
  unfold setBlock
  split
  · exact ⟨by simp, trivial, fun a e => by cases e; simp⟩
  · exact ⟨by simp, trivial, fun a e => by cases e⟩
theorem sndB_zz (i : Nat) : SndB (zz i) := by unfold zz; snd

theorem sndB_slowLen (mc : List Int) (w : Int) : ∀ n len, SndB (slowLen mc w n len)
  | 0, len => by unfold slowLen; snd
  | n + 1, len => by
    have ih := sndB_slowLen mc w n (len + 1)
    unfold slowLen; snd

theorem sndB_decodeHuff (t : HuffmanTable) (e : Nat) : SndB (decodeHuff t e) := by
  have h1 := fun a b c d => sndB_slowLen a b c d
  unfold decodeHuff
  dsimp only
  snd
  exact h1 _ _ _ _

theorem sndB_decodeDc (t : HuffmanTable) (p : I32) : SndB (decodeDc t p) := by
  have h1 := sndB_refillIfBelow 16
  have h2 := fun e => sndB_decodeHuff t e
  have h3 := fun n => sndB_getBits n
  unfold decodeDc
  snd
  all_goals first | exact h2 _ | exact h3 _

theorem sndB_acLoop (t : HuffmanTable) (lu : List I16) (n : Nat) : ∀ fuel pos block,
    block.length = n → Snd (fun _ => True) (acLoop t lu fuel pos block) fun b => b.length = n
  | 0, pos, block, h => by
    unfold acLoop
    exact Snd.ite (fun _ => Snd.diverge) fun _ => Snd.pureR h
  | fuel + 1, pos, block, h => by
    have ih := fun p b hb => sndB_acLoop t lu n fuel p b hb
    unfold acLoop
    refine Snd.ite (fun _ => ?_) fun _ => Snd.pureR h
    refine Snd.bind sndB_refill fun _ => Snd.get fun s _ => ?_
    refine Snd.bind (Snd.idx _ _).triv fun fast => Snd.bind (Snd.idx _ _).triv fun entry => ?_
    refine Snd.ite (fun _ => ?_) fun _ => ?_
    · refine Snd.bind (sndB_zz _) fun i => Snd.bindR (sndB_setBlock _ _ _) fun b hb => ?_
      exact Snd.bind (Snd.modify fun _ _ => trivial) fun _ => ih _ _ (hb.trans h)
    · refine Snd.bind (sndB_decodeHuff _ _) fun sym => ?_
      refine Snd.ite (fun _ => ?_) fun _ => ?_
      · refine Snd.bind (sndB_getBits _) fun bits => Snd.bind (sndB_zz _) fun i => ?_
        exact Snd.bindR (sndB_setBlock _ _ _) fun b hb => ih _ _ (hb.trans h)
      · exact Snd.ite (fun _ => Snd.pureR h) fun _ => ih _ _ h

theorem sndB_decodeAc (t : HuffmanTable) (p : I32) (block : List I16) :
    Snd (fun _ => True) (decodeAc t p block) fun b => b.length = block.length := by
  unfold decodeAc
  exact Snd.bind (Snd.unwrap _).triv fun lu => Snd.bindR (sndB_setBlock _ _ _) fun b hb =>
    sndB_acLoop _ _ _ _ _ _ hb

theorem decodeMcuBlock_ne (dc ac : HuffmanTable) (block : List I16) (pred : I32) (s : B) :
    (decodeMcuBlock dc ac block pred s).1 ≠ .panic .unsound ∧
      ∀ b, (decodeMcuBlock dc ac block pred s).1 = .ok b → b.length = block.length := by
  unfold decodeMcuBlock
  cases ac.acLookup with
  | none => exact ⟨by simp, fun _ h => by cases h⟩
  | some _ =>
    have h := sndB_decodeDc dc pred s trivial
    dsimp only
    rcases e : decodeDc dc pred s with ⟨_ | _ | _ | _, s'⟩ <;> rw [e] at h <;> dsimp only at *
    · obtain ⟨h1, -, h3⟩ := sndB_decodeAc ac (by assumption) block s' trivial
      exact ⟨h1, h3⟩
    · exact ⟨by simp, fun _ h => by cases h⟩
    · exact ⟨by simpa using h.1, fun _ h => by cases h⟩
    · exact ⟨by simp, fun _ h => by cases h⟩

theorem sndB_dcFirst (t : HuffmanTable) (p : I32) : SndB (decodeProgDcFirst t p) := by
  have h := sndB_decodeDc t p
  unfold decodeProgDcFirst
  snd

theorem sndB_dcRefine (c : I16) : SndB (decodeProgDcRefine c) := by
  have h := sndB_refillIfBelow 1
  have h2 := sndB_getBit
  unfold decodeProgDcRefine
  snd

theorem sndB_acFirstLoop (t : HuffmanTable) (lu : List I16) (sh se : Nat) : ∀ fuel k block,
    SndB (acFirstLoop t lu sh se fuel k block)
  | 0, k, block => by unfold acFirstLoop; exact Snd.diverge
  | fuel + 1, k, block => by
    have ih := fun p b => sndB_acFirstLoop t lu sh se fuel p b
    have h1 := sndB_refill
    have h2 := fun e => sndB_decodeHuff t e
    have h3 := fun n => sndB_getBits n
    have h4 := fun n => sndB_zz n
    have h5 := fun a b c => (sndB_setBlock a b c).triv
    unfold acFirstLoop
    snd
    all_goals first | exact h2 _ | exact h3 _ | exact h4 _ | exact h5 _ _ _ | exact ih _ _

theorem sndB_acFirst (t : HuffmanTable) (block : List I16) : SndB (decodeMcuAcFirst t block) := by
  have h := fun a b c d e f => sndB_acFirstLoop t a b c d e f
  unfold decodeMcuAcFirst
  snd
  exact h _ _ _ _ _ _

theorem sndB_advance (bit : I16) (se : Nat) : ∀ n k r block, SndB (advanceNonzero bit se n k r block)
  | 0, k, r, block => by unfold advanceNonzero; snd
  | n + 1, k, r, block => by
    have ih := fun k r b => sndB_advance bit se n k r b
    have h1 := sndB_getBit
    have h3 := sndB_refillIfBelow 1
    have h4 := fun n => sndB_zz n
    have h5 := fun a b c => (sndB_setBlock a b c).triv
    unfold advanceNonzero
    snd
    all_goals first | exact h4 _ | exact h5 _ _ _ | exact ih _ _ _ | skip
    cases r with
    | zero => exact Snd.pure _
    | succ r => exact ih _ _ _

theorem sndB_refineLoop (t : HuffmanTable) (bit : I16) (se : Nat) : ∀ fuel k block,
    SndB (refineLoop t bit se fuel k block)
  | 0, k, block => by unfold refineLoop; exact Snd.diverge
  | fuel + 1, k, block => by
    have ih := fun k b => sndB_refineLoop t bit se fuel k b
    have h1 := sndB_refill
    have h2 := fun e => sndB_decodeHuff t e
    have h3 := fun n => sndB_getBits n
    have h4 := fun n => sndB_zz n
    have h5 := fun a b c => (sndB_setBlock a b c).triv
    have h6 := sndB_getBit
    have h7 := fun a b c d e f => sndB_advance a b c d e f
    unfold refineLoop
    snd
    all_goals first | exact h2 _ | exact h3 _ | exact h4 _ | exact h5 _ _ _ | exact ih _ _ | exact h7 _ _ _ _ _ _

theorem sndB_eobRefine (bit : I16) (se : Nat) : ∀ n k block, SndB (eobRefine bit se n k block)
  | 0, k, block => by unfold eobRefine; snd
  | n + 1, k, block => by
    have ih := fun k b => sndB_eobRefine bit se n k b
    have h1 := sndB_getBit
    have h3 := sndB_refillIfBelow 1
    have h4 := fun n => sndB_zz n
    have h5 := fun a b c => (sndB_setBlock a b c).triv
    unfold eobRefine
    snd
    all_goals first | exact h4 _ | exact h5 _ _ _ | exact ih _ _

theorem sndB_acRefine (t : HuffmanTable) (block : List I16) : SndB (decodeMcuAcRefine t block) := by
  have h := fun b c d e f => sndB_refineLoop t b c d e f
  have h2 := fun a b c d e => sndB_eobRefine a b c d e
  have h3 := sndB_refill
  unfold decodeMcuAcRefine
  snd
  all_goals first | exact h _ _ _ _ _ | exact h2 _ _ _ _ _

end Zune
