import Verif.Lemmas.Local
import Verif.Lemmas.Refill
import Verif.Model.Prog
/-! The functions that read entropy coded data look only at the bytes they consume. -/

namespace Zune

/-- States with a bit reader and unread bytes. -/
class Reads (σ : Type) where
  bs : σ → BitStream
  rd : σ → List UInt8
  put : σ → List UInt8 → σ
  rd_put : ∀ s r, rd (put s r) = r
  bs_put : ∀ s r, bs (put s r) = bs s
  put_rd : ∀ s, put s (rd s) = s

instance : Reads B := ⟨B.bs, B.rd, fun s r => { s with rd := r }, fun _ _ => rfl, fun _ _ => rfl, fun _ => rfl⟩
instance : Reads T := ⟨fun t => t.io.bs, fun t => t.io.rd, fun t r => { t with io := { t.io with rd := r } },
  fun _ _ => rfl, fun _ _ => rfl, fun _ => rfl⟩

section
variable {σ α β : Type} [Reads σ]
open Reads

/-- The reader is not past the end of the data: there are unread bytes, or it has stopped at a marker in
`P`. -/
def Live (P : Marker → Prop) (s : σ) : Prop := rd s ≠ [] ∨ ∃ m, (bs s).marker = some m ∧ P m

/-- If `m` succeeds and the reader is not past the end afterwards, then it was not so before, and `m`
consumed bytes that may be followed by anything. -/
def Cau (P : Marker → Prop) (m : M σ α) : Prop := ∀ s v s', m s = (.ok v, s') → Live P s' →
  Live P s ∧ ∃ a, rd s = a ++ rd s' ∧ ∀ t, m (put s (a ++ t)) = (.ok v, put s' t)

variable {P : Marker → Prop}

theorem Cau.bind {m : M σ α} {f : α → M σ β} (hm : Cau P m) (hf : ∀ a, Cau P (f a)) : Cau P (m >>= f) := by
  intro s v s' h hl
  obtain ⟨a, s1, h1, h2⟩ := M.bind_ok_inv h
  obtain ⟨l1, q, hq, e2⟩ := hf _ _ _ _ h2 hl
  obtain ⟨l0, p, hp, e1⟩ := hm _ _ _ h1 l1
  refine ⟨l0, p ++ q, by rw [hp, hq, List.append_assoc], fun t => ?_⟩
  rw [List.append_assoc, M.bind_ok (e1 _)]
  exact e2 t

/-- Actions that do not read. -/
theorem Cau.of_still {m : M σ α} (h : ∀ s v s', m s = (.ok v, s') → rd s' = rd s ∧
    (∀ k, (bs s').marker = some k → (bs s).marker = some k) ∧ ∀ t, m (put s t) = (.ok v, put s' t)) : Cau P m := by
  intro s v s' e hl
  obtain ⟨h1, h2, h3⟩ := h _ _ _ e
  refine ⟨?_, [], by rw [h1]; rfl, fun t => h3 t⟩
  rcases hl with hl | ⟨k, hk, hp⟩
  · exact Or.inl (h1 ▸ hl)
  · exact Or.inr ⟨k, h2 k hk, hp⟩

theorem Cau.of_ofOut (o : Out α) : Cau P (M.ofOut o : M σ α) := Cau.of_still fun s v s' e => by
  cases e
  exact ⟨rfl, fun _ h => h, fun _ => rfl⟩
theorem Cau.pure (a : α) : Cau P (Pure.pure a : M σ α) := Cau.of_ofOut (.ok a)
theorem Cau.throw (e : DecodeErr) : Cau P (M.throw e : M σ α) := Cau.of_ofOut (.err e)
theorem Cau.panic (p : Site) : Cau P (M.panic p : M σ α) := Cau.of_ofOut (.panic p)
theorem Cau.diverge : Cau P (M.diverge : M σ α) := Cau.of_ofOut .diverge
theorem Cau.idx (l : List α) (i : Nat) : Cau P (M.idx l i : M σ α) := by
  have : (M.idx l i : M σ α) = M.ofOut (match l[i]? with | some a => .ok a | none => .panic .index) := by
    funext s; unfold M.idx M.ofOut; cases l[i]? <;> rfl
  rw [this]; exact Cau.of_ofOut _
theorem Cau.okOr (o : Option α) (e : DecodeErr) : Cau P (M.okOr o e : M σ α) := by
  have : (M.okOr o e : M σ α) = M.ofOut (match o with | some a => .ok a | none => .err e) := by
    funext s; unfold M.okOr M.ofOut; cases o <;> rfl
  rw [this]; exact Cau.of_ofOut _
theorem Cau.unwrap (o : Option α) : Cau P (M.unwrap o : M σ α) := by
  have : (M.unwrap o : M σ α) = M.ofOut (match o with | some a => .ok a | none => .panic .unwrap) := by
    funext s; unfold M.unwrap M.ofOut; cases o <;> rfl
  rw [this]; exact Cau.of_ofOut _
theorem Cau.ite {c : Prop} [Decidable c] {m n : M σ α} (hm : Cau P m) (hn : Cau P n) :
    Cau P (if c then m else n) := by
  by_cases h : c <;> simpa [h]
theorem Cau.get_bind {f : σ → M σ β} (hf : ∀ s, Cau P (f s)) (hp : ∀ s r, f (put s r) = f s) :
    Cau P (M.get >>= f) := by
  intro s v s' h hl
  obtain ⟨l, a, ha, e⟩ := hf s s v s' h hl
  refine ⟨l, a, ha, fun t => ?_⟩
  show f (put s (a ++ t)) (put s (a ++ t)) = _
  rw [hp]
  exact e t
theorem Cau.modify {f : σ → σ} (h1 : ∀ s, rd (f s) = rd s)
    (h2 : ∀ s k, (bs (f s)).marker = some k → (bs s).marker = some k)
    (h3 : ∀ s t, f (put s t) = put (f s) t) : Cau P (M.modify f) := Cau.of_still fun s v s' e => by
  cases e
  exact ⟨h1 s, h2 s, fun t => by rw [← h3]; rfl⟩
theorem Cau.foldM {f : β → α → M σ β} (hf : ∀ b a, Cau P (f b a)) :
    ∀ (l : List α) (b : β), Cau P (M.foldM l b f)
  | [], b => Cau.pure b
  | a :: l, b => Cau.bind (hf b a) fun b => Cau.foldM hf l b

end

/-- One step of `cau`. -/
macro "cau1" : tactic => `(tactic| first
  | with_reducible exact Cau.pure _ | with_reducible exact Cau.throw _ | with_reducible exact Cau.panic _
  | with_reducible exact Cau.diverge
  | with_reducible exact Cau.of_ofOut _ | with_reducible exact Cau.idx _ _ | with_reducible exact Cau.unwrap _
  | with_reducible exact Cau.okOr _ _ | with_reducible assumption
  | ((with_reducible apply Cau.modify) <;> intros <;> first | rfl | assumption)
  | ((with_reducible refine Cau.get_bind (fun _ => ?_) ?_) <;> [skip; (intro _ _; rfl)])
  | with_reducible refine Cau.bind ?_ fun _ => ?_ | with_reducible apply Cau.ite)

/-- Proves `Cau` of an action made of the basic operations. -/
macro "cau" : tactic => `(tactic| repeat' (first | cau1 | dsimp only))

variable {P : Marker → Prop}

/-! ### The bit reader -/

theorem skipFill_cau : ∀ {b c : UInt8} {r r' : List UInt8}, skipFill b r = (c, r') → c ≠ 0 →
    ∃ a, r = a ++ r' ∧ ∀ t, skipFill b (a ++ t) = (c, t)
  | b, c, [], r', h, hc => by
    unfold skipFill at h
    split at h
    · cases h; exact absurd rfl hc
    · rename_i hb
      cases h
      refine ⟨[], rfl, fun t => ?_⟩
      cases t <;> simp [skipFill, hb]
  | b, c, x :: r, r', h, hc => by
    unfold skipFill at h
    split at h
    · rename_i hb
      obtain ⟨a, rfl, e⟩ := skipFill_cau h hc
      exact ⟨x :: a, rfl, fun t => by rw [List.cons_append, skipFill, if_pos hb, e]⟩
    · rename_i hb
      cases h
      refine ⟨[], rfl, fun t => ?_⟩
      cases t <;> simp [skipFill, hb]

theorem skipFill_cau' : ∀ {b c : UInt8} {r r' : List UInt8}, skipFill b r = (c, r') → r' ≠ [] →
    ∃ a, r = a ++ r' ∧ ∀ t, skipFill b (a ++ t) = (c, t)
  | b, c, [], r', h, hc => by
    unfold skipFill at h
    split at h <;> cases h <;> exact absurd rfl hc
  | b, c, x :: r, r', h, hc => by
    unfold skipFill at h
    split at h
    · rename_i hb
      obtain ⟨a, rfl, e⟩ := skipFill_cau' h hc
      exact ⟨x :: a, rfl, fun t => by rw [List.cons_append, skipFill, if_pos hb, e]⟩
    · rename_i hb
      cases h
      refine ⟨[], rfl, fun t => ?_⟩
      cases t <;> simp [skipFill, hb]

theorem refillByte_more {bs : BitStream} {rd : List UInt8} {s' : B} (h : refillByte ⟨bs, rd⟩ = .more s')
    (hl : Live P s') (hm : bs.marker = none) : rd ≠ [] ∧ s'.bs.marker = none ∧
    ∃ a, rd = a ++ s'.rd ∧ ∀ t, refillByte ⟨bs, a ++ t⟩ = .more { s' with rd := t } := by
  rcases rd with _ | ⟨b, r⟩
  · unfold refillByte readU8 at h
    simp at h
    subst h
    rcases hl with hl | ⟨k, hk, -⟩
    · exact absurd rfl hl
    · simp [Reads.bs, hm] at hk
  · refine ⟨by simp, ?_⟩
    by_cases hb : b = 0xFF
    · subst hb
      rcases r with _ | ⟨c, r⟩
      · unfold refillByte readU8 at h
        simp [readU8] at h
        subst h
        rcases hl with hl | ⟨k, hk, -⟩
        · exact absurd rfl hl
        · simp [Reads.bs, hm] at hk
      · by_cases hc : c = 0
        · subst hc
          simp [refillByte, readU8] at h
          subst h
          exact ⟨hm, [0xFF, 0], rfl, fun t => by simp [refillByte, readU8]⟩
        · rcases hs : skipFill c r with ⟨n, r'⟩
          by_cases hn : n = 0
          · subst hn
            simp [refillByte, readU8, hc, hs] at h
            subst h
            have hr : r' ≠ [] := by
              rcases hl with hl | ⟨k, hk, -⟩
              · exact hl
              · simp [Reads.bs, hm] at hk
            obtain ⟨a, rfl, e⟩ := skipFill_cau' hs hr
            exact ⟨hm, 0xFF :: c :: a, rfl, fun t => by simp [refillByte, readU8, hc, e]⟩
          · cases hk : Marker.fromU8 n <;> simp [refillByte, readU8, hc, hs, hn, hk] at h
    · simp [refillByte, readU8, hb] at h
      subst h
      exact ⟨hm, [b], rfl, fun t => by simp [refillByte, readU8, hb]⟩

theorem refillByte_stop {bs : BitStream} {rd : List UInt8} {s' : B} (h : refillByte ⟨bs, rd⟩ = .stop s') :
    rd ≠ [] ∧ ∃ a, rd = a ++ s'.rd ∧ ∀ t, refillByte ⟨bs, a ++ t⟩ = .stop { s' with rd := t } := by
  rcases rd with _ | ⟨b, r⟩
  · unfold refillByte readU8 at h
    simp at h
  · refine ⟨by simp, ?_⟩
    by_cases hb : b = 0xFF
    · subst hb
      rcases r with _ | ⟨c, r⟩
      · unfold refillByte readU8 at h
        simp [readU8] at h
      · by_cases hc : c = 0
        · subst hc
          simp [refillByte, readU8] at h
        · rcases hs : skipFill c r with ⟨n, r'⟩
          by_cases hn : n = 0
          · subst hn
            simp [refillByte, readU8, hc, hs] at h
          · obtain ⟨a, rfl, e⟩ := skipFill_cau hs hn
            cases hk : Marker.fromU8 n <;> simp [refillByte, readU8, hc, hs, hn, hk] at h
            subst h
            exact ⟨0xFF :: c :: a, rfl, fun t => by simp [refillByte, readU8, hc, e, hn, hk]⟩
    · simp [refillByte, readU8, hb] at h

theorem refillBytes_cau : ∀ (n : Nat) {s s' : B}, refillBytes n s = (.ok (), s') → Live P s' →
    s.bs.marker = none → Live P s ∧ ∃ a, s.rd = a ++ s'.rd ∧ ∀ t,
      refillBytes n { s with rd := a ++ t } = (.ok (), { s' with rd := t })
  | 0, s, s', h, hl, hm => by
    cases h
    exact ⟨hl, [], rfl, fun t => rfl⟩
  | n + 1, ⟨bs, rd⟩, s', h, hl, hm => by
    unfold refillBytes at h
    rcases hr : refillByte ⟨bs, rd⟩ with s1 | s1 | s1 <;> rw [hr] at h <;> dsimp only at h
    · have h0 : s1.bs.marker = none := by
        revert hr
        unfold refillByte
        dsimp only
        intro hr
        split at hr
        · split at hr
          · split at hr
            · split at hr <;> cases hr
            · cases hr; exact hm
          · cases hr; exact hm
        · cases hr; exact hm
      obtain ⟨l1, a, ha, e⟩ := refillBytes_cau n h hl h0
      obtain ⟨hne, -, b, hb, e'⟩ := refillByte_more hr l1 hm
      refine ⟨Or.inl hne, b ++ a, by rw [hb, ha, List.append_assoc], fun t => ?_⟩
      unfold refillBytes
      have := e' (a ++ t)
      dsimp only
      rw [List.append_assoc, this]
      exact e t
    · cases h
      obtain ⟨hne, b, hb, e'⟩ := refillByte_stop hr
      refine ⟨Or.inl hne, b, hb, fun t => ?_⟩
      unfold refillBytes
      dsimp only
      rw [e' t]
    · cases h

theorem refill_cau : Cau P refill := by
  intro s v s' h hl
  by_cases hm : s.bs.marker = none
  · by_cases hb : s.bs.bitsLeft ≤ 32
    · rw [refill_slow s hb hm] at h
      obtain ⟨l, a, ha, e⟩ := refillBytes_cau 4 h hl hm
      refine ⟨l, a, ha, fun t => ?_⟩
      rw [refill_slow (Reads.put s (a ++ t)) hb hm]
      exact e t
    · have key : ∀ r, refill { s with rd := r } = (.ok (), { s with rd := r }) := by
        intro r; unfold refill; simp [hb, hm]
      rw [show s = { s with rd := s.rd } from rfl, key] at h
      cases h
      exact ⟨hl, [], rfl, fun t => key _⟩
  · have key : ∀ r, refill { s with rd := r } = (.ok (), ⟨{ s.bs with bitsLeft := 63 }, r⟩) := by
      intro r; unfold refill; simp [hm]
    rw [show s = { s with rd := s.rd } from rfl, key] at h
    cases h
    exact ⟨hl, [], rfl, fun t => key _⟩

theorem refillIfBelow_cau (n : Nat) : Cau P (refillIfBelow n) := by
  intro s v s' h hl
  unfold refillIfBelow at h ⊢
  by_cases hb : s.bs.bitsLeft < n
  · rw [if_pos hb] at h
    obtain ⟨l, a, ha, e⟩ := refill_cau s v s' h hl
    refine ⟨l, a, ha, fun t => ?_⟩
    rw [if_pos (show (Reads.put s (a ++ t)).bs.bitsLeft < n from hb)]
    exact e t
  · rw [if_neg hb] at h
    cases h
    exact ⟨hl, [], rfl, fun t => if_neg hb⟩

theorem getBitsM_cau (n : Nat) : Cau P (getBitsM n) := Cau.of_still fun s v s' e => by
  cases e
  exact ⟨rfl, fun _ h => h, fun _ => rfl⟩
theorem getBitM_cau : Cau P getBitM := Cau.of_still fun s v s' e => by
  cases e
  exact ⟨rfl, fun _ h => h, fun _ => rfl⟩
theorem setBlock_cau (b : List I16) (i : Nat) (v : I16) : Cau P (setBlock b i v) := by
  have : setBlock b i v = M.ofOut (if i < b.length then .ok (b.set i v) else .panic .index) := by
    funext s; unfold setBlock M.ofOut; split <;> rfl
  rw [this]; exact Cau.of_ofOut _
theorem zz_cau (i : Nat) : Cau P (zz i) := by unfold zz; cau

theorem slowLen_cau (mc : List Int) (w : Int) : ∀ n len, Cau P (slowLen mc w n len)
  | 0, len => by unfold slowLen; cau
  | n + 1, len => by
    have := slowLen_cau mc w n (len + 1)
    unfold slowLen; cau

theorem decodeHuff_cau (t : HuffmanTable) (entry : Nat) : Cau P (decodeHuff t entry) := by
  unfold decodeHuff
  cau
  exact slowLen_cau _ _ _ _
  cau

/-- `cau` with the operations of the bit reader. -/
macro "caub" : tactic => `(tactic| repeat' (first
  | with_reducible exact refill_cau | with_reducible exact refillIfBelow_cau _
  | with_reducible exact getBitsM_cau _ | with_reducible exact getBitM_cau
  | with_reducible exact setBlock_cau _ _ _ | with_reducible exact zz_cau _
  | with_reducible exact decodeHuff_cau _ _
  | cau1 | dsimp only))

theorem decodeDc_cau (t : HuffmanTable) (p : I32) : Cau P (decodeDc t p) := by
  unfold decodeDc; caub

theorem acLoop_cau (t : HuffmanTable) (l : List I16) : ∀ n pos b, Cau P (acLoop t l n pos b)
  | 0, pos, b => by unfold acLoop; caub
  | n + 1, pos, b => by
    have ih := acLoop_cau t l n
    unfold acLoop
    caub
    all_goals exact ih _ _

theorem decodeAc_cau (t : HuffmanTable) (p : I32) (b : List I16) : Cau P (decodeAc t p b) := by
  unfold decodeAc; caub; exact acLoop_cau _ _ _ _ _

theorem decodeProgDcFirst_cau (t : HuffmanTable) (p : I32) : Cau P (decodeProgDcFirst t p) := by
  unfold decodeProgDcFirst
  refine Cau.bind (decodeDc_cau _ _) fun _ => ?_
  caub

theorem decodeProgDcRefine_cau (c : I16) : Cau P (decodeProgDcRefine c) := by
  unfold decodeProgDcRefine; caub

theorem acFirstLoop_cau (t : HuffmanTable) (l : List I16) (sh se : Nat) :
    ∀ n k b, Cau P (acFirstLoop t l sh se n k b)
  | 0, k, b => by unfold acFirstLoop; caub
  | n + 1, k, b => by
    have ih := acFirstLoop_cau t l sh se n
    unfold acFirstLoop
    caub
    all_goals exact ih _ _

theorem decodeMcuAcFirst_cau (t : HuffmanTable) (b : List I16) : Cau P (decodeMcuAcFirst t b) := by
  unfold decodeMcuAcFirst; caub; exact acFirstLoop_cau _ _ _ _ _ _ _

theorem advanceNonzero_cau (bit : I16) (se : Nat) : ∀ n k r b, Cau P (advanceNonzero bit se n k r b)
  | 0, k, r, b => by unfold advanceNonzero; caub
  | n + 1, k, r, b => by
    have ih := advanceNonzero_cau bit se n
    unfold advanceNonzero
    caub
    · exact ih _ _ _
    · cases r
      · caub
      · exact ih _ _ _

theorem refineLoop_cau (t : HuffmanTable) (bit : I16) (se : Nat) : ∀ n k b, Cau P (refineLoop t bit se n k b)
  | 0, k, b => by unfold refineLoop; caub
  | n + 1, k, b => by
    have ih := refineLoop_cau t bit se n
    unfold refineLoop
    caub
    all_goals first | exact advanceNonzero_cau _ _ _ _ _ _ | skip
    all_goals (caub; exact ih _ _)

theorem eobRefine_cau (bit : I16) (se : Nat) : ∀ n k b, Cau P (eobRefine bit se n k b)
  | 0, k, b => by unfold eobRefine; caub
  | n + 1, k, b => by
    have ih := eobRefine_cau bit se n
    unfold eobRefine
    caub
    all_goals exact ih _ _

theorem decodeMcuAcRefine_cau (t : HuffmanTable) (b : List I16) : Cau P (decodeMcuAcRefine t b) := by
  unfold decodeMcuAcRefine
  caub
  all_goals first | exact refineLoop_cau _ _ _ _ _ _ | skip
  all_goals caub
  all_goals exact eobRefine_cau _ _ _ _ _

end Zune
