import Verif.Lemmas.CausalProg
import Verif.Lemmas.Trailing
import Verif.Spec.SameData
/-! Scans of data that differ in fill bytes and in the numbers of restart markers. -/

namespace Zune

open Spec (SameData IsRst)

/-- The bytes after a marker that starts a segment. -/
def Beyond (segs : Bool) (r r' : List UInt8) : Prop :=
  r = r' ∨ segs = true ∧ ∃ p l l', p.length + 2 < 65536 ∧ r = lenBytes p.length ++ p ++ l ∧
    r' = lenBytes p.length ++ p ++ l' ∧ SameData segs l l'

/-- Pending markers and unread bytes of two readers. -/
inductive MRel (segs : Bool) : Option Marker → Option Marker → List UInt8 → List UInt8 → Prop where
  | clear {r r'} : SameData segs r r' → MRel segs none none r r'
  | rst {a b r r'} : SameData segs r r' → MRel segs (some (.rst a)) (some (.rst b)) r r'
  | other {m r r'} : (∀ n, m ≠ .rst n) → Beyond segs r r' → MRel segs (some m) (some m) r r'

/-- States with a bit reader and unread bytes, whose marker and bytes can be exchanged. -/
class Swaps (σ : Type) where
  mark : σ → Option Marker
  rd : σ → List UInt8
  swap : σ → Option Marker → List UInt8 → σ

instance : Swaps B := ⟨fun s => s.bs.marker, B.rd, fun s k r => ⟨{ s.bs with marker := k }, r⟩⟩
instance : Swaps T := ⟨fun t => t.io.bs.marker, fun t => t.io.rd,
  fun t k r => { t with io := ⟨{ t.io.bs with marker := k }, r⟩ }⟩

section
variable {σ α β : Type} [Swaps σ] {segs : Bool}
open Swaps

/-- If `m` succeeds, it does so on the other data, with the same result. -/
def Fol (segs : Bool) (m : M σ α) : Prop := ∀ s k r, MRel segs (mark s) k (rd s) r → ∀ v t, m s = (.ok v, t) →
  ∃ k' r', MRel segs (mark t) k' (rd t) r' ∧ m (swap s k r) = (.ok v, swap t k' r')

theorem Fol.bind {m : M σ α} {f : α → M σ β} (hm : Fol segs m) (hf : ∀ a, Fol segs (f a)) :
    Fol segs (m >>= f) := by
  intro s k r h v t e
  obtain ⟨a, s1, h1, h2⟩ := M.bind_ok_inv e
  obtain ⟨k1, r1, g1, e1⟩ := hm s k r h _ _ h1
  obtain ⟨k2, r2, g2, e2⟩ := hf a s1 k1 r1 g1 _ _ h2
  exact ⟨k2, r2, g2, by rw [M.bind_ok e1]; exact e2⟩

theorem Fol.ofOut (o : Out α) : Fol segs (M.ofOut o : M σ α) := by
  intro s k r h v t e
  cases e
  exact ⟨k, r, h, rfl⟩
theorem Fol.pure (a : α) : Fol segs (Pure.pure a : M σ α) := Fol.ofOut (.ok a)
theorem Fol.throw (e : DecodeErr) : Fol segs (M.throw e : M σ α) := Fol.ofOut (.err e)
theorem Fol.panic (p : Site) : Fol segs (M.panic p : M σ α) := Fol.ofOut (.panic p)
theorem Fol.diverge : Fol segs (M.diverge : M σ α) := Fol.ofOut .diverge
theorem Fol.idx (l : List α) (i : Nat) : Fol segs (M.idx l i : M σ α) := by
  have : (M.idx l i : M σ α) = M.ofOut (match l[i]? with | some a => .ok a | none => .panic .index) := by
    funext s; unfold M.idx M.ofOut; cases l[i]? <;> rfl
  rw [this]; exact Fol.ofOut _
theorem Fol.okOr (o : Option α) (e : DecodeErr) : Fol segs (M.okOr o e : M σ α) := by
  have : (M.okOr o e : M σ α) = M.ofOut (match o with | some a => .ok a | none => .err e) := by
    funext s; unfold M.okOr M.ofOut; cases o <;> rfl
  rw [this]; exact Fol.ofOut _
theorem Fol.unwrap (o : Option α) : Fol segs (M.unwrap o : M σ α) := by
  have : (M.unwrap o : M σ α) = M.ofOut (match o with | some a => .ok a | none => .panic .unwrap) := by
    funext s; unfold M.unwrap M.ofOut; cases o <;> rfl
  rw [this]; exact Fol.ofOut _
theorem Fol.ite {c : Prop} [Decidable c] {m n : M σ α} (hm : Fol segs m) (hn : Fol segs n) :
    Fol segs (if c then m else n) := by
  by_cases h : c <;> simpa [h]
theorem Fol.get_bind {f : σ → M σ β} (hf : ∀ s, Fol segs (f s)) (hp : ∀ s k r, f (swap s k r) = f s) :
    Fol segs (M.get >>= f) := by
  intro s k r h v t e
  obtain ⟨k', r', g, e'⟩ := hf s s k r h v t e
  refine ⟨k', r', g, ?_⟩
  show f (swap s k r) (swap s k r) = _
  rw [hp]
  exact e'
theorem Fol.modify {f : σ → σ} (h1 : ∀ s, rd (f s) = rd s) (h2 : ∀ s, mark (f s) = mark s)
    (h3 : ∀ s k r, f (swap s k r) = swap (f s) k r) : Fol segs (M.modify f) := by
  intro s k r h v t e
  cases e
  refine ⟨k, r, by rw [h1, h2]; exact h, ?_⟩
  show (Out.ok (), f (swap s k r)) = _
  rw [h3]
theorem Fol.foldM {f : β → α → M σ β} (hf : ∀ b a, Fol segs (f b a)) :
    ∀ (l : List α) (b : β), Fol segs (M.foldM l b f)
  | [], b => Fol.pure b
  | a :: l, b => Fol.bind (hf b a) fun b => Fol.foldM hf l b
end

/-- One step of `fol`. -/
macro "fol1" : tactic => `(tactic| first
  | with_reducible exact Fol.pure _ | with_reducible exact Fol.throw _ | with_reducible exact Fol.panic _
  | with_reducible exact Fol.diverge
  | with_reducible exact Fol.ofOut _ | with_reducible exact Fol.idx _ _ | with_reducible exact Fol.unwrap _
  | with_reducible exact Fol.okOr _ _ | with_reducible assumption
  | ((with_reducible apply Fol.modify) <;> intros <;> rfl)
  | ((with_reducible refine Fol.get_bind (fun _ => ?_) ?_) <;> [skip; (intro _ _ _; rfl)])
  | with_reducible refine Fol.bind ?_ fun _ => ?_ | with_reducible apply Fol.ite)

/-- Proves `Fol` of an action made of the basic operations. -/
macro "fol" : tactic => `(tactic| repeat' (first | fol1 | dsimp only))

variable {segs : Bool}

/-! ### The bit reader -/

theorem fill_found {m : UInt8} (l : List UInt8) (h0 : m ≠ 0) (hf : m ≠ 0xFF) : ∀ i, ∃ c r,
    List.replicate i 0xFF ++ m :: l = c :: r ∧ c ≠ 0 ∧ skipFill c r = (m, l)
  | 0 => ⟨m, l, rfl, h0, by cases l <;> simp [skipFill, hf]⟩
  | i + 1 => by
    obtain ⟨c, r, e, -, h⟩ := fill_found l h0 hf i
    refine ⟨0xFF, c :: r, by rw [List.replicate_succ, List.cons_append, e], by decide, ?_⟩
    rw [skipFill, if_pos rfl, h]

/-- What a refill by one byte does at the marker `m`. -/
def markStep (bs : BitStream) (m : UInt8) (l : List UInt8) : Step :=
  let buffer := ((bs.buffer <<< 8) ||| ((0xFF : UInt8).toBitVec.setWidth 64)) >>> 8
  let bl := bs.bitsLeft + 8 - 8
  let aligned := if bl ≠ 0 then shl64 buffer (64 - bl) else bs.aligned
  let bs := { bs with buffer := buffer, bitsLeft := bl, aligned := aligned }
  match Marker.fromU8 m with
  | some m => .stop { bs := { bs with marker := some m }, rd := l }
  | none => .bad { bs := bs, rd := l }

theorem refillByte_mark (bs : BitStream) {m : UInt8} (l : List UInt8) (h0 : m ≠ 0) (hf : m ≠ 0xFF) (i : Nat) :
    refillByte ⟨bs, 0xFF :: (List.replicate i 0xFF ++ m :: l)⟩ = markStep bs m l := by
  obtain ⟨c, r, e, hc, hs⟩ := fill_found l h0 hf i
  unfold refillByte markStep
  simp only [readU8, e, hs, if_pos, hc, h0, ne_eq, not_false_eq_true]
  cases Marker.fromU8 m <;> rfl

theorem MRel.refl (m : Option Marker) (r : List UInt8) : MRel segs m m r r := by
  cases m with
  | none => exact .clear (.refl r)
  | some m =>
    by_cases h : ∃ n, m = .rst n
    · obtain ⟨n, rfl⟩ := h
      exact .rst (.refl r)
    · exact .other (fun n e => h ⟨n, e⟩) (Or.inl rfl)

theorem markStep_fol {bs : BitStream} {a b : UInt8} {l l' : List UInt8}
    (h : ∀ k, Marker.fromU8 a = some k → ∃ k', Marker.fromU8 b = some k' ∧ MRel segs (some k) (some k') l l') :
    match markStep bs a l with
    | .more _ => False
    | .stop s => ∃ k r2, MRel segs s.bs.marker k s.rd r2 ∧
        markStep bs b l' = .stop ⟨{ s.bs with marker := k }, r2⟩
    | .bad _ => True := by
  unfold markStep
  dsimp only
  cases e : Marker.fromU8 a with
  | none => trivial
  | some k =>
    obtain ⟨k', e', hr⟩ := h k e
    exact ⟨some k', l', hr, by rw [e']⟩

theorem refillByte_none {s s' : B} (hm : s.bs.marker = none) (h : refillByte s = .more s') :
    s'.bs.marker = none := by
  unfold refillByte at h
  dsimp only at h
  split at h
  · split at h
    · split at h
      · split at h <;> cases h
      · cases h; exact hm
    · cases h; exact hm
  · cases h; exact hm

theorem IsRst.ne {a : UInt8} (h : IsRst a) : a ≠ 0 ∧ a ≠ 0xFF := by
  refine ⟨?_, ?_⟩ <;> rintro rfl
  · exact absurd h.1 (by decide)
  · exact absurd h.2 (by decide)

theorem fromU8_of_rst {a : UInt8} {n : Nat} (h : Marker.fromU8 a = some (.rst n)) : IsRst a := by
  have : ∀ k : Fin 256, (match Marker.fromU8 (UInt8.ofNat k) with | some (.rst _) => true | _ => false) = true →
      208 ≤ (k : Nat) ∧ (k : Nat) ≤ 215 := by decide +kernel
  have h' := this ⟨a.toNat, a.toNat_lt⟩
  rw [UInt8.ofNat_toNat, h] at h'
  exact h' rfl

theorem refillByte_fol {bs : BitStream} (hm : bs.marker = none) {r r' : List UInt8} (h : SameData segs r r') :
    match refillByte ⟨bs, r⟩ with
    | .more s => s.bs.marker = none ∧ ∃ r2, SameData segs s.rd r2 ∧ refillByte ⟨bs, r'⟩ = .more ⟨s.bs, r2⟩
    | .stop s => ∃ k r2, MRel segs s.bs.marker k s.rd r2 ∧
        refillByte ⟨bs, r'⟩ = .stop ⟨{ s.bs with marker := k }, r2⟩
    | .bad _ => True := by
  have mark : ∀ {a b : UInt8} {l l' : List UInt8} (i j : Nat), a ≠ 0 → a ≠ 0xFF → b ≠ 0 → b ≠ 0xFF →
      (∀ k, Marker.fromU8 a = some k → ∃ k', Marker.fromU8 b = some k' ∧
        MRel segs (some k) (some k') l l') →
      match refillByte ⟨bs, 0xFF :: (List.replicate i 0xFF ++ a :: l)⟩ with
      | .more s => s.bs.marker = none ∧ ∃ r2, SameData segs s.rd r2 ∧
          refillByte ⟨bs, 0xFF :: (List.replicate j 0xFF ++ b :: l')⟩ = .more ⟨s.bs, r2⟩
      | .stop s => ∃ k r2, MRel segs s.bs.marker k s.rd r2 ∧
          refillByte ⟨bs, 0xFF :: (List.replicate j 0xFF ++ b :: l')⟩ = .stop ⟨{ s.bs with marker := k }, r2⟩
      | .bad _ => True := by
    intro a b l l' i j ha ha' hb hb' hk
    rw [refillByte_mark bs l ha ha' i, refillByte_mark bs l' hb hb' j]
    have := markStep_fol (bs := bs) hk
    revert this
    cases markStep bs a l with
    | more s => exact False.elim
    | stop s => exact id
    | bad s => exact id
  cases h with
  | refl =>
    cases e : refillByte ⟨bs, r⟩ with
    | more s => exact ⟨refillByte_none hm e, s.rd, .refl _, rfl⟩
    | stop s => exact ⟨s.bs.marker, s.rd, .refl _ _, rfl⟩
    | bad s => trivial
  | @byte b _ _ hb h =>
    have e : ∀ l, refillByte ⟨bs, b :: l⟩ = .more ⟨{ bs with
        buffer := (bs.buffer <<< 8) ||| (b.toBitVec.setWidth 64), bitsLeft := bs.bitsLeft + 8 }, l⟩ := by
      intro l
      unfold refillByte
      simp only [readU8, hb, if_false]
    rw [e, e]
    exact ⟨hm, _, h, rfl⟩
  | stuffed h =>
    have e : ∀ l, refillByte ⟨bs, 0xFF :: 0 :: l⟩ = .more ⟨{ bs with
        buffer := (bs.buffer <<< 8) ||| ((0xFF : UInt8).toBitVec.setWidth 64),
        bitsLeft := bs.bitsLeft + 8 }, l⟩ := by
      intro l
      unfold refillByte
      simp only [readU8, if_true, ne_eq, not_true_eq_false, if_false]
    rw [e, e]
    exact ⟨hm, _, h, rfl⟩
  | restart i j ha hb h =>
    refine mark i j (IsRst.ne ha).1 (IsRst.ne ha).2 (IsRst.ne hb).1 (IsRst.ne hb).2 fun k hk => ?_
    obtain ⟨n, hn⟩ := fromU8_rst ha.1 ha.2
    obtain ⟨n', hn'⟩ := fromU8_rst hb.1 hb.2
    rw [hn] at hk
    cases hk
    exact ⟨_, hn', .rst h⟩
  | marker i j l h0 hf =>
    exact mark i j h0 hf h0 hf fun k hk => ⟨k, hk, .refl _ _⟩
  | segment i j hs h0 hf hr hp h =>
    refine mark i j h0 hf h0 hf fun k hk => ⟨k, hk, .other ?_ (Or.inr ⟨hs, _, _, _, hp, rfl, rfl, h⟩)⟩
    rintro n rfl
    exact hr (fromU8_of_rst hk)

theorem refillBytes_fol : ∀ (n : Nat) {bs : BitStream}, bs.marker = none → ∀ {r r' : List UInt8},
    SameData segs r r' → ∀ {t : B}, refillBytes n ⟨bs, r⟩ = (.ok (), t) →
    ∃ k r2, MRel segs t.bs.marker k t.rd r2 ∧
      refillBytes n ⟨bs, r'⟩ = (.ok (), ⟨{ t.bs with marker := k }, r2⟩)
  | 0, bs, hm, r, r', h, t, e => by
    cases e
    refine ⟨none, r', by rw [show (_ : Option Marker) = bs.marker from rfl, hm]; exact .clear h, ?_⟩
    unfold refillBytes
    rw [← hm]
  | n + 1, bs, hm, r, r', h, t, e => by
    have h1 := refillByte_fol hm h
    unfold refillBytes at e ⊢
    cases hr : refillByte ⟨bs, r⟩ with
    | more s =>
      rw [hr] at h1 e
      obtain ⟨h2, r2, h3, h4⟩ := h1
      rw [h4]
      exact refillBytes_fol n h2 h3 e
    | stop s =>
      rw [hr] at h1 e
      obtain ⟨k, r2, h3, h4⟩ := h1
      cases e
      exact ⟨k, r2, h3, by rw [h4]⟩
    | bad s =>
      rw [hr] at e
      cases e

theorem MRel.isNone {m k : Option Marker} {r r' : List UInt8} (h : MRel segs m k r r') :
    m = none ↔ k = none := by
  cases h <;> simp

theorem refill_fol : Fol segs refill := by
  intro s k r h v t e
  obtain ⟨bs, rd⟩ := s
  change MRel segs bs.marker k rd r at h
  show ∃ k' r', MRel segs t.bs.marker k' t.rd r' ∧ refill ⟨{ bs with marker := k }, r⟩ = (.ok v, ⟨{ t.bs with marker := k' }, r'⟩)
  by_cases hm : bs.marker = none
  · have hk := h.isNone.1 hm
    subst hk
    rw [hm] at h
    have e0 : ({ bs with marker := none } : BitStream) = bs := by rw [← hm]
    rw [e0]
    by_cases hb : bs.bitsLeft ≤ 32
    · cases h with
      | clear h =>
        rw [refill_slow ⟨bs, rd⟩ hb hm] at e
        rw [refill_slow ⟨bs, r⟩ hb hm]
        exact refillBytes_fol 4 hm h e
    · have key : ∀ r, refill ⟨bs, r⟩ = (.ok (), ⟨bs, r⟩) := by
        intro r; unfold refill; simp [hb, hm]
      rw [key] at e
      cases e
      exact ⟨none, r, by rw [show (_ : Option Marker) = bs.marker from rfl, hm]; exact h, by rw [key, e0]⟩
  · have hk : k ≠ none := fun h' => hm (h.isNone.2 h')
    have key : ∀ (bs : BitStream) r, bs.marker ≠ none →
        refill ⟨bs, r⟩ = (.ok (), ⟨{ bs with bitsLeft := 63 }, r⟩) := by
      intro bs r hm; unfold refill; simp [hm]
    rw [key _ _ hm] at e
    cases e
    exact ⟨k, r, h, key _ _ hk⟩

theorem refillIfBelow_fol (n : Nat) : Fol segs (refillIfBelow n) := by
  have : refillIfBelow n = M.get >>= fun s => if s.bs.bitsLeft < n then refill else pure () := by
    funext s
    unfold refillIfBelow
    show _ = (if _ then refill else pure ()) s
    split <;> rfl
  rw [this]
  have := refill_fol (segs := segs)
  fol

theorem getBitsM_fol (n : Nat) : Fol segs (getBitsM n) := by
  intro s k r h v t e
  cases e
  exact ⟨k, r, h, rfl⟩
theorem getBitM_fol : Fol segs getBitM := by
  intro s k r h v t e
  cases e
  exact ⟨k, r, h, rfl⟩
theorem setBlock_fol (b : List I16) (i : Nat) (v : I16) : Fol segs (setBlock b i v) := by
  have : setBlock b i v = M.ofOut (if i < b.length then .ok (b.set i v) else .panic .index) := by
    funext s; unfold setBlock M.ofOut; split <;> rfl
  rw [this]; exact Fol.ofOut _
theorem zz_fol (i : Nat) : Fol segs (zz i) := by unfold zz; fol

theorem slowLen_fol (mc : List Int) (w : Int) : ∀ n len, Fol segs (slowLen mc w n len)
  | 0, len => by unfold slowLen; fol
  | n + 1, len => by
    have := slowLen_fol mc w n (len + 1)
    unfold slowLen; fol

theorem decodeHuff_fol (t : HuffmanTable) (entry : Nat) : Fol segs (decodeHuff t entry) := by
  unfold decodeHuff
  fol
  exact slowLen_fol _ _ _ _

/-- `fol`, with the functions of the bit reader. -/
macro "folb" : tactic => `(tactic| repeat' (first
  | with_reducible exact refill_fol | with_reducible exact refillIfBelow_fol _
  | with_reducible exact getBitsM_fol _ | with_reducible exact getBitM_fol
  | with_reducible exact setBlock_fol _ _ _ | with_reducible exact zz_fol _
  | with_reducible exact decodeHuff_fol _ _
  | fol1 | dsimp only))

theorem decodeDc_fol (t : HuffmanTable) (p : I32) : Fol segs (decodeDc t p) := by
  unfold decodeDc; folb

theorem acLoop_fol (t : HuffmanTable) (l : List I16) : ∀ n pos b, Fol segs (acLoop t l n pos b)
  | 0, pos, b => by unfold acLoop; folb
  | n + 1, pos, b => by
    have ih := acLoop_fol t l n
    unfold acLoop
    folb
    all_goals exact ih _ _

theorem decodeAc_fol (t : HuffmanTable) (p : I32) (b : List I16) : Fol segs (decodeAc t p b) := by
  unfold decodeAc; folb; exact acLoop_fol _ _ _ _ _

theorem decodeProgDcFirst_fol (t : HuffmanTable) (p : I32) : Fol segs (decodeProgDcFirst t p) := by
  unfold decodeProgDcFirst
  refine Fol.bind (decodeDc_fol _ _) fun _ => ?_
  folb

theorem decodeProgDcRefine_fol (c : I16) : Fol segs (decodeProgDcRefine c) := by
  unfold decodeProgDcRefine; folb

theorem acFirstLoop_fol (t : HuffmanTable) (l : List I16) (sh se : Nat) :
    ∀ n k b, Fol segs (acFirstLoop t l sh se n k b)
  | 0, k, b => by unfold acFirstLoop; folb
  | n + 1, k, b => by
    have ih := acFirstLoop_fol t l sh se n
    unfold acFirstLoop
    folb
    all_goals exact ih _ _

theorem decodeMcuAcFirst_fol (t : HuffmanTable) (b : List I16) : Fol segs (decodeMcuAcFirst t b) := by
  unfold decodeMcuAcFirst; folb; exact acFirstLoop_fol _ _ _ _ _ _ _

theorem advanceNonzero_fol (bit : I16) (se : Nat) : ∀ n k r b, Fol segs (advanceNonzero bit se n k r b)
  | 0, k, r, b => by unfold advanceNonzero; folb
  | n + 1, k, r, b => by
    have ih := advanceNonzero_fol bit se n
    unfold advanceNonzero
    folb
    · exact ih _ _ _
    · cases r
      · folb
      · exact ih _ _ _

theorem refineLoop_fol (t : HuffmanTable) (bit : I16) (se : Nat) :
    ∀ n k b, Fol segs (refineLoop t bit se n k b)
  | 0, k, b => by unfold refineLoop; folb
  | n + 1, k, b => by
    have ih := refineLoop_fol t bit se n
    unfold refineLoop
    folb
    all_goals first | exact advanceNonzero_fol _ _ _ _ _ _ | skip
    all_goals exact ih _ _

theorem eobRefine_fol (bit : I16) (se : Nat) : ∀ n k b, Fol segs (eobRefine bit se n k b)
  | 0, k, b => by unfold eobRefine; folb
  | n + 1, k, b => by
    have ih := eobRefine_fol bit se n
    unfold eobRefine
    folb
    all_goals exact ih _ _

theorem decodeMcuAcRefine_fol (t : HuffmanTable) (b : List I16) : Fol segs (decodeMcuAcRefine t b) := by
  unfold decodeMcuAcRefine
  folb
  all_goals first | exact refineLoop_fol _ _ _ _ _ _ | skip
  all_goals exact eobRefine_fol _ _ _ _ _

/-! ### The scan -/

theorem liftB_fol {α} {m : M B α} (h : Fol segs m) : Fol segs (liftB m) := by
  intro t k r hr v t' e
  unfold liftB at e
  rcases hm : m t.io with ⟨x, s⟩
  rw [hm] at e
  cases e
  obtain ⟨k', r', h1, h2⟩ := h t.io k r hr v s hm
  refine ⟨k', r', h1, ?_⟩
  unfold liftB
  rw [show (Swaps.swap t k r).io = Swaps.swap t.io k r from rfl, h2]
  rfl

theorem handleRst_fol : Fol segs handleRst := by
  intro t k r h v t' e
  change MRel segs t.io.bs.marker k t.io.rd r at h
  have hk : (Swaps.swap t k r).io.bs.marker = k := rfl
  unfold handleRst at e ⊢
  rw [hk]
  generalize hm : t.io.bs.marker = m at h e
  cases h with
  | clear h =>
    cases e
    exact ⟨none, r, by show MRel segs t.io.bs.marker _ _ _; rw [hm]; exact .clear h, rfl⟩
  | rst h =>
    cases e
    exact ⟨none, r, .clear h, rfl⟩
  | @other m r r' hn h =>
    cases m <;> first | (cases e; done) | skip
    · exact absurd rfl (hn _)
    · cases e
      exact ⟨_, _, by show MRel segs t.io.bs.marker _ _ _; rw [hm]; exact .other (by simp) h, rfl⟩

theorem countDown_fol : Fol segs countDown := by
  have : countDown = (M.modify fun t => { t with dec := { t.dec with todo := wrappingPred t.dec.todo } }) >>=
      fun _ => M.get >>= fun t => if t.dec.todo = 0 then handleRst else pure () := by
    funext t
    unfold countDown
    show _ = (if _ then handleRst else pure ()) _
    dsimp only
    split <;> rfl
  rw [this]
  have := handleRst_fol (segs := segs)
  fol

theorem decodeBlock_fol (dc ac : HuffmanTable) (pos : Nat) (b : List I16) :
    Fol segs (decodeBlock dc ac pos b) := by
  intro t k r h v t' e
  have hc : (Swaps.swap t k r).dec.components[pos]? = t.dec.components[pos]? := rfl
  unfold decodeBlock at e ⊢
  rw [hc]
  rcases hp : t.dec.components[pos]? with _ | c
  · rw [hp] at e; cases e
  · rw [hp] at e
    dsimp only at e ⊢
    unfold decodeMcuBlock at e ⊢
    rcases hl : ac.acLookup with _ | l
    · rw [hl] at e; cases e
    · rw [hl] at e
      dsimp only at e ⊢
      rcases hd : decodeDc dc c.dcPred t.io with ⟨_ | _ | _ | _, s1⟩ <;> rw [hd] at e <;> try cases e
      rename_i p
      obtain ⟨k1, r1, h1, e1⟩ := decodeDc_fol dc c.dcPred t.io k r h _ _ hd
      rw [show (Swaps.swap t k r).io = Swaps.swap t.io k r from rfl, e1]
      dsimp only at e ⊢
      rcases ha : decodeAc ac p b s1 with ⟨x, s2⟩
      rw [ha] at e
      cases e
      obtain ⟨k2, r2, h2, e2⟩ := decodeAc_fol ac p b s1 k1 r1 h1 _ _ ha
      rw [e2]
      exact ⟨k2, r2, h2, rfl⟩

theorem decodeSample_fol (s : Scan) (v j pos : Nat) (dc ac : HuffmanTable) (c : Component)
    (temp : List (List I16)) (vh : Nat × Nat) : Fol segs (decodeSample s v j pos dc ac c temp vh) := by
  unfold decodeSample
  fol
  all_goals exact decodeBlock_fol _ _ _ _

theorem decodeComponent_fol (s : Scan) (v j : Nat) (temp : List (List I16)) (pos : Nat) :
    Fol segs (decodeComponent s v j temp pos) := by
  unfold decodeComponent
  fol
  exact Fol.foldM (fun _ _ => decodeSample_fol _ _ _ _ _ _ _ _ _) _ _

theorem decodeMcu_fol (s : Scan) (v0 j : Nat) : ∀ l temp, Fol false (decodeMcu s v0 j l temp)
  | [], temp => by unfold decodeMcu; fol
  | pos :: rest, temp => by
    have ih := decodeMcu_fol s v0 j rest
    unfold decodeMcu
    refine Fol.bind (decodeComponent_fol _ _ _ _ _) fun temp => Fol.bind countDown_fol fun _ => ?_
    intro t k r h v t' e
    have hg : ∀ (f : T → M T (List (List I16))) t, (M.get >>= f) t = f t t := fun _ _ => rfl
    have hk : (Swaps.swap t k r).io.bs.marker = k := rfl
    change MRel false t.io.bs.marker k t.io.rd r at h
    rw [hg] at e ⊢
    rw [hk]
    have h' := h
    generalize hm : t.io.bs.marker = m at h e
    cases h with
    | clear h => exact ih temp t _ _ h' _ _ e
    | rst h => exact ih temp t _ _ h' _ _ e
    | @other m _ _ hn h =>
      obtain rfl : t.io.rd = r := by
        rcases h with h | ⟨h, -⟩
        · exact h
        · cases h
      have hs : Swaps.swap t (some m) t.io.rd = t := by
        show ({ t with io := ⟨{ t.io.bs with marker := some m }, t.io.rd⟩ } : T) = t
        rw [← hm]
      have ht : Swaps.swap t' t'.io.bs.marker t'.io.rd = t' := rfl
      rw [hs]
      exact ⟨t'.io.bs.marker, t'.io.rd, .refl _ _, by rw [ht]; exact e⟩

theorem decodeStrip_fol (s : Scan) (temp : List (List I16)) : Fol false (decodeStrip s temp) := by
  unfold decodeStrip
  refine Fol.foldM (fun _ _ => ?_) _ _
  dsimp only
  fol
  exact decodeMcu_fol _ _ _ _ _

theorem submit_fol (s : Scan) (temp : List (List I16)) : Fol segs (submit s temp) := by
  intro t k r h v t' e
  have hx : (Swaps.swap t k r).jobs = t.jobs := rfl
  unfold submit at e ⊢
  rw [hx]
  by_cases hl : t.jobs.length < s.outLen / s.chunk
  · rw [if_pos hl] at e ⊢
    cases e
    exact ⟨k, r, h, rfl⟩
  · rw [if_neg hl] at e
    cases e

theorem strips_fol (s : Scan) : ∀ n, Fol false (strips s n)
  | 0 => by unfold strips; fol
  | n + 1 => by
    unfold strips strip
    refine Fol.bind ?_ fun _ => strips_fol s n
    fol
    · exact decodeStrip_fol _ _
    · exact submit_fol _ _

/-! ### Progressive scans -/

theorem progTable_fol (l : List (Option HuffmanTable)) (i : Nat) : Fol segs (progTable l i) := by
  have : progTable l i = M.ofOut (match l[i]? with | some (some h) => .ok h | _ => .err .format) := by
    funext t
    unfold progTable M.ofOut
    rcases l[i]? with _ | _ | h <;> rfl
  rw [this]; exact Fol.ofOut _

theorem setPred_fol (k : Nat) (p : I32) : Fol segs (setPred k p) := by
  intro t k r h v t' e
  cases e
  exact ⟨k, r, h, rfl⟩

theorem progDc_fol (k : Nat) (c : I16) (table : HuffmanTable) : Fol segs (progDc k c table) := by
  unfold progDc
  fol
  · exact liftB_fol (decodeProgDcFirst_fol _ _)
  · exact setPred_fol _ _
  · exact liftB_fol (decodeProgDcRefine_fol _)

theorem progBlock_fol (k mw i j : Nat) (b : List I16) : Fol segs (progBlock k mw i j b) := by
  unfold progBlock
  fol
  all_goals first
    | exact progTable_fol _ _ | exact progDc_fol _ _ _ | exact liftB_fol (decodeMcuAcFirst_fol _ _)
    | exact liftB_fol (decodeMcuAcRefine_fol _ _)

theorem progLoop_fol (k mw mh : Nat) : ∀ n i j bufs, Fol segs (progLoop k mw mh n i j bufs)
  | 0, i, j, bufs => by unfold progLoop; fol
  | n + 1, i, j, bufs => by
    have ih := progLoop_fol k mw mh n
    unfold progLoop
    fol
    all_goals first | exact ih _ _ _ | exact countDown_fol | exact progBlock_fol _ _ _ _ _

theorem interSample_fol (i j n : Nat) (comp : Component) (table : HuffmanTable) (bufs : List (List I16))
    (vh : Nat × Nat) : Fol segs (interSample i j n comp table bufs vh) := by
  unfold interSample
  fol
  exact progDc_fol _ _ _

theorem interComponent_fol (i j : Nat) (bufs : List (List I16)) (k : Nat) :
    Fol segs (interComponent i j bufs k) := by
  unfold interComponent
  fol
  · exact progTable_fol _ _
  · exact Fol.foldM (fun _ _ => interSample_fol _ _ _ _ _ _ _) _ _
  · exact countDown_fol

/-- A scan: whatever marker was pending is forgotten when it starts. -/
theorem parseEntropy_fol (bufs : List (List I16)) {t t' : T} {r : List UInt8} {v : List (List I16)}
    (h : SameData segs t.io.rd r) (e : parseEntropy bufs t = (.ok v, t')) :
    ∃ k' r', MRel segs t'.io.bs.marker k' t'.io.rd r' ∧
      parseEntropy bufs (Swaps.swap t none r) = (.ok v, Swaps.swap t' k' r') := by
  unfold parseEntropy at e ⊢
  have hg : ∀ (f : T → M T (List (List I16))) t, (M.get >>= f) t = f t t := fun _ _ => rfl
  rw [hg] at e ⊢
  obtain ⟨u, t1, h1, e⟩ := M.bind_ok_inv e
  obtain ⟨u', t2, h2, e⟩ := M.bind_ok_inv e
  have h1' : M.ofOut (Swaps.swap t none r).dec.checkComponentDimensions (Swaps.swap t none r) =
      (.ok u, Swaps.swap t none r) := by
    unfold M.ofOut at h1 ⊢
    injection h1 with h1 _
    exact Prod.ext h1 rfl
  obtain rfl : t = t1 := by
    unfold M.ofOut at h1
    injection h1
  cases h2
  rw [M.bind_ok h1']
  refine Exists.imp (fun k' => Exists.imp fun r' => And.imp_right fun e => ?_) ((?_ : Fol segs _) _ none r
    (MRel.clear h) _ _ e)
  · refine (M.bind_ok (show M.modify _ _ = (.ok (), _) from rfl)).trans ?_
    exact e
  · fol
    · exact progLoop_fol _ _ _ _ _ _ _
    · exact Fol.foldM (fun _ _ => Fol.foldM (fun _ _ => interComponent_fol _ _ _ _) _ _) _ _

/-- Markers that the loop over the scans treats alike, with the bytes after them. -/
inductive NextMark (segs : Bool) : Marker → Marker → List UInt8 → List UInt8 → Prop where
  | rst {a b r r'} : NextMark segs (.rst a) (.rst b) r r'
  | other {m r r'} : Beyond segs r r' → NextMark segs m m r r'

theorem scanMarker_fills {m : UInt8} (l : List UInt8) (h0 : m ≠ 0) (hf : m ≠ 0xFF) : ∀ i,
    scanMarker true (List.replicate i 0xFF ++ m :: l) = (Marker.fromU8 m, l)
  | 0 => by
    show scanMarker true (m :: l) = _
    rw [scanMarker, if_neg hf, if_neg h0]
  | i + 1 => by
    rw [List.replicate_succ, List.cons_append, scanMarker, if_pos rfl]
    exact scanMarker_fills l h0 hf i

theorem scanMarker_fol {r r' : List UInt8} (h : SameData segs r r') {m : Marker} {x : List UInt8}
    (e : scanMarker false r = (some m, x)) :
    ∃ m' x', scanMarker false r' = (some m', x') ∧ NextMark segs m m' x x' := by
  induction h with
  | refl l => exact ⟨m, x, e, .other (Or.inl rfl)⟩
  | @byte b l l' hb h ih =>
    have hb' : (b == 0xFF) = false := by simpa using hb
    rw [scanMarker, hb'] at e ⊢
    exact ih e
  | stuffed h ih =>
    have : ∀ l, scanMarker false (0xFF :: 0 :: l) = scanMarker false l := fun l => rfl
    rw [this] at e ⊢
    exact ih e
  | restart i j ha hb h =>
    obtain ⟨n, hn⟩ := fromU8_rst ha.1 ha.2
    obtain ⟨n', hn'⟩ := fromU8_rst hb.1 hb.2
    have : ∀ l, scanMarker false (0xFF :: l) = scanMarker true l := fun l => rfl
    rw [this, scanMarker_fills _ (IsRst.ne ha).1 (IsRst.ne ha).2, hn] at e
    rw [this, scanMarker_fills _ (IsRst.ne hb).1 (IsRst.ne hb).2, hn']
    cases e
    exact ⟨_, _, rfl, .rst⟩
  | marker i j l h0 hf =>
    have : ∀ l, scanMarker false (0xFF :: l) = scanMarker true l := fun l => rfl
    rw [this, scanMarker_fills _ h0 hf] at e ⊢
    exact ⟨m, x, e, .other (Or.inl rfl)⟩
  | segment i j hs h0 hf hr hp h =>
    have : ∀ l, scanMarker false (0xFF :: l) = scanMarker true l := fun l => rfl
    rw [this, scanMarker_fills _ h0 hf] at e ⊢
    injection e with e1 e2
    subst e2
    exact ⟨m, _, by rw [e1], .other (Or.inr ⟨hs, _, _, _, hp, rfl, rfl, h⟩)⟩

theorem getMarker_fol {t t' : T} {k : Option Marker} {r : List UInt8} {m : Marker}
    (h : MRel segs t.io.bs.marker k t.io.rd r) (e : getMarker t = (.ok m, t')) :
    t'.io.bs.marker = none ∧ ∃ m' r', getMarker (Swaps.swap t k r) = (.ok m', Swaps.swap t' none r') ∧
      NextMark segs m m' t'.io.rd r' := by
  unfold getMarker at e ⊢
  rw [show (Swaps.swap t k r).io.bs.marker = k from rfl]
  rw [show (Swaps.swap t k r).io.rd = r from rfl]
  generalize hm : t.io.bs.marker = mm at h e
  cases h with
  | clear h =>
    dsimp only at e ⊢
    rcases hs : scanMarker false t.io.rd with ⟨_ | k, x⟩
    · rw [hs] at e; cases e
    · rw [hs] at e
      cases e
      obtain ⟨m', x', e', hn⟩ := scanMarker_fol h hs
      refine ⟨hm, m', x', ?_, hn⟩
      rw [e']
      rfl
  | @rst a b _ _ h =>
    cases e
    exact ⟨rfl, _, r, rfl, .rst⟩
  | other hn h =>
    cases e
    exact ⟨rfl, _, r, rfl, .other h⟩

theorem liftH_segment {mb : UInt8} {m : M H Unit} (hs : segStep mb = m) {t t' : T} {r : List UInt8}
    (h : Beyond segs t.io.rd r) (e : liftH m t = (.ok (), t')) : t'.io.bs = t.io.bs ∧
    ∃ r', SameData segs t'.io.rd r' ∧ liftH m (Swaps.swap t t.io.bs.marker r) =
      (.ok (), Swaps.swap t' t.io.bs.marker r') := by
  unfold liftH at e ⊢
  rcases hr : m ⟨t.dec, t.io.rd⟩ with ⟨x, ⟨d, rd⟩⟩
  rw [hr] at e
  cases e
  refine ⟨rfl, ?_⟩
  rcases h with h | ⟨hsg, p, l, l', hp, h1, h2, h3⟩
  · subst h
    refine ⟨rd, .refl _, ?_⟩
    rw [show (⟨(Swaps.swap t t.io.bs.marker t.io.rd).dec, (Swaps.swap t t.io.bs.marker t.io.rd).io.rd⟩ : H) =
      ⟨t.dec, t.io.rd⟩ from rfl, hr]
    rfl
  · subst h2
    rw [h1, ← hs, segOk_iff hp] at hr
    obtain ⟨rfl, hr⟩ := hr
    refine ⟨l', h3, ?_⟩
    have := (segOk_iff (rest := l') (rd' := l') hp).2 ⟨rfl, hr⟩
    rw [hs] at this
    rw [show (⟨(Swaps.swap t t.io.bs.marker (lenBytes p.length ++ p ++ l')).dec,
      (Swaps.swap t t.io.bs.marker (lenBytes p.length ++ p ++ l')).io.rd⟩ : H) =
      ⟨t.dec, lenBytes p.length ++ p ++ l'⟩ from rfl, this]
    rfl

theorem scanLoop_fol : ∀ (fuel seen : Nat) (m m' : Marker) (bufs : List (List I16)) (t t' : T)
    (r : List UInt8) (v : List (List I16)), t.io.bs.marker = none → NextMark segs m m' t.io.rd r →
    scanLoop fuel seen m bufs t = (.ok v, t') →
    ∃ k r', scanLoop fuel seen m' bufs (Swaps.swap t none r) = (.ok v, Swaps.swap t' k r') := by
  intro fuel
  induction fuel with
  | zero =>
    intro seen m m' bufs t t' r v hm h e
    unfold scanLoop at e ⊢
    by_cases he : m = .eoi
    · subst he
      cases h with
      | other h =>
        rw [if_neg (by simp)] at e ⊢
        cases e
        exact ⟨none, r, rfl⟩
    · rw [if_pos he] at e; cases e
  | succ fuel ih =>
    intro seen m m' bufs t t' r v hm h e
    cases h with
    | rst =>
      cases e
      exact ⟨none, r, rfl⟩
    | other h =>
      cases m
      case dht =>
        rw [scanLoop] at e ⊢
        obtain ⟨u, t1, h1, e⟩ := M.bind_ok_inv e
        obtain ⟨m1, t2, h2, h3⟩ := M.bind_ok_inv e
        obtain ⟨hb, r1, g1, e1⟩ := liftH_segment (mb := 0xC4) rfl h h1
        rw [hm] at e1
        replace e1 : liftH parseHuffman (Swaps.swap t none r) = _ := e1
        obtain ⟨hn, m2, r2, e2, g2⟩ := getMarker_fol (k := none) (r := r1)
          (by rw [hb, hm]; exact .clear g1) h2
        rw [M.bind_ok e1, M.bind_ok e2]
        exact ih _ _ _ _ _ _ _ _ hn g2 h3
      case sos =>
        rw [scanLoop] at e ⊢
        obtain ⟨u, t1, h1, ea⟩ := M.bind_ok_inv e
        obtain ⟨u', t2, h2, eb⟩ := M.bind_ok_inv ea
        obtain ⟨bufs', t3, h3, ec⟩ := M.bind_ok_inv eb
        obtain ⟨m1, t4, h4, ed⟩ := M.bind_ok_inv ec
        obtain ⟨hb, r1, g1, e1⟩ := liftH_segment (mb := 0xDA) rfl h h1
        rw [hm] at e1
        replace e1 : liftH parseSos (Swaps.swap t none r) = _ := e1
        cases h2
        dsimp only at h3
        obtain ⟨k3, r3, g3, e3⟩ := parseEntropy_fol bufs (r := r1) (t := { t1 with io := ⟨t1.io.bs.updateProgressiveParams
          t1.dec.succHigh t1.dec.succLow t1.dec.specStart t1.dec.specEnd, t1.io.rd⟩ }) g1 h3
        obtain ⟨hn, m2, r4, e4, g4⟩ := getMarker_fol g3 h4
        have h5 : (if seen + 1 > t4.dec.options.getMaxScans then M.throw .format
          else M.modify (fun t => { t with io := { t.io with bs := t.io.bs.reset } }) >>= fun _ =>
            scanLoop fuel (seen + 1) m1 bufs' : M T (List (List I16))) t4 = (.ok v, t') := ed
        by_cases hs : seen + 1 > t4.dec.options.getMaxScans
        · rw [if_pos hs] at h5; cases h5
        · rw [if_neg hs] at h5
          obtain ⟨u'', t5, h6, h7⟩ := M.bind_ok_inv h5
          cases h6
          obtain ⟨k6, r6, e6⟩ := ih _ _ m2 _ ({ t4 with io := ⟨t4.io.bs.reset, t4.io.rd⟩ } : T) _ r4 _ rfl g4 h7
          refine ⟨k6, r6, ?_⟩
          rw [M.bind_ok e1]
          refine (M.bind_ok (show M.modify _ _ = (.ok (), _) from rfl)).trans ?_
          refine (M.bind_ok e3).trans ?_
          refine (M.bind_ok e4).trans ?_
          refine (M.bind_ok (show M.get _ = (.ok _, _) from rfl)).trans ?_
          dsimp only
          rw [if_neg (show ¬ seen + 1 > (Swaps.swap t4 none r4).dec.options.getMaxScans from hs)]
          refine (M.bind_ok (show M.modify _ _ = (.ok (), _) from rfl)).trans ?_
          exact e6
      all_goals
        cases e
        exact ⟨none, r, rfl⟩

theorem takeMarker_fol {t t' : T} {k : Option Marker} {r : List UInt8} {m : Marker}
    (h : MRel segs t.io.bs.marker k t.io.rd r) (e : takeMarker t = (.ok m, t')) :
    t'.io.bs.marker = none ∧ ∃ m', takeMarker (Swaps.swap t k r) = (.ok m', Swaps.swap t' none r) ∧
      NextMark segs m m' t'.io.rd r := by
  unfold takeMarker at e ⊢
  rw [show (Swaps.swap t k r).io.bs.marker = k from rfl]
  generalize hm : t.io.bs.marker = mm at h e
  cases h with
  | clear h => cases e
  | rst h =>
    cases e
    exact ⟨rfl, _, rfl, .rst⟩
  | other hn h =>
    cases e
    exact ⟨rfl, _, rfl, .other h⟩

theorem progScans_fol {bufs v : List (List I16)} {t t' : T} {r : List UInt8}
    (h : SameData segs t.io.rd r) (e : progScans bufs t = (.ok v, t')) :
    ∃ k r', progScans bufs (Swaps.swap t none r) = (.ok v, Swaps.swap t' k r') := by
  unfold progScans at e ⊢
  obtain ⟨bufs', t1, h1, e⟩ := M.bind_ok_inv e
  obtain ⟨m, t2, h2, e⟩ := M.bind_ok_inv e
  have h3 : scanLoop (t2.io.rd.length + 1) 1 m bufs' t2 = (.ok v, t') := e
  obtain ⟨k1, r1, g1, e1⟩ := parseEntropy_fol bufs h h1
  obtain ⟨hn, m', e2, g2⟩ := takeMarker_fol g1 h2
  obtain ⟨k3, r3, e3⟩ := scanLoop_fol _ _ _ _ _ _ _ _ _ hn g2 h3
  refine ⟨k3, r3, ?_⟩
  rw [M.bind_ok e1, M.bind_ok e2]
  refine (M.bind_ok (show M.get _ = (.ok _, _) from rfl)).trans ?_
  obtain ⟨a, ha, ea⟩ := scanLoop_cau _ _ _ _ _ _ _ e3
  have := ea (Swaps.swap t' k3 r3).io.rd ((Swaps.swap t2 none r1).io.rd.length + 1) (by
    rw [ha, List.length_append]; omega)
  rw [← ha] at this
  exact this

end Zune
