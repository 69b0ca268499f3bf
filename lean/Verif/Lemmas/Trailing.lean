import Verif.Lemmas.CausalScan
import Verif.Spec.EndedData
/-! What follows the end-of-image marker of a baseline scan is not looked at. -/

namespace Zune

open Spec (EndedData)

section
variable {σ α β : Type} [Reads σ]
open Reads

/-- The unread bytes are followed by `t`. -/
def ext (s : σ) (t : List UInt8) : σ := put s (rd s ++ t)

/-- The reader is inside of data that ends with the end-of-image marker, or has found that marker. -/
def Inside (s : σ) : Prop := (bs s).marker = some .eoi ∨
  EndedData (rd s) ∧ ((bs s).marker = none ∨ ∃ n, (bs s).marker = some (.rst n))

/-- `m` does the same, whatever the result is, if bytes follow the end of the image. -/
def Sim (m : M σ α) : Prop := ∀ s, Inside s → Inside (m s).2 ∧ ∀ t, m (ext s t) = ((m s).1, ext (m s).2 t)

theorem Sim.bind {m : M σ α} {f : α → M σ β} (hm : Sim m) (hf : ∀ a, Sim (f a)) : Sim (m >>= f) := by
  intro s hs
  obtain ⟨h1, h2⟩ := hm s hs
  rcases hr : m s with ⟨r, s1⟩
  rw [hr] at h1 h2
  cases r with
  | ok a =>
    have e : (m >>= f) s = f a s1 := M.bind_ok hr
    rw [e]
    exact ⟨(hf a s1 h1).1, fun t => by rw [M.bind_ok (h2 t)]; exact (hf a s1 h1).2 t⟩
  | err x =>
    have e : (m >>= f) s = (.err x, s1) := by rw [M.bind_apply, hr]
    rw [e]
    exact ⟨h1, fun t => by rw [M.bind_apply, h2 t]⟩
  | panic x =>
    have e : (m >>= f) s = (.panic x, s1) := by rw [M.bind_apply, hr]
    rw [e]
    exact ⟨h1, fun t => by rw [M.bind_apply, h2 t]⟩
  | diverge =>
    have e : (m >>= f) s = (.diverge, s1) := by rw [M.bind_apply, hr]
    rw [e]
    exact ⟨h1, fun t => by rw [M.bind_apply, h2 t]⟩

theorem Sim.ofOut (o : Out α) : Sim (M.ofOut o : M σ α) := fun s hs => ⟨hs, fun _ => rfl⟩
theorem Sim.pure (a : α) : Sim (Pure.pure a : M σ α) := Sim.ofOut (.ok a)
theorem Sim.throw (e : DecodeErr) : Sim (M.throw e : M σ α) := Sim.ofOut (.err e)
theorem Sim.panic (p : Site) : Sim (M.panic p : M σ α) := Sim.ofOut (.panic p)
theorem Sim.diverge : Sim (M.diverge : M σ α) := Sim.ofOut .diverge
theorem Sim.idx (l : List α) (i : Nat) : Sim (M.idx l i : M σ α) := by
  have : (M.idx l i : M σ α) = M.ofOut (match l[i]? with | some a => .ok a | none => .panic .index) := by
    funext s; unfold M.idx M.ofOut; cases l[i]? <;> rfl
  rw [this]; exact Sim.ofOut _
theorem Sim.okOr (o : Option α) (e : DecodeErr) : Sim (M.okOr o e : M σ α) := by
  have : (M.okOr o e : M σ α) = M.ofOut (match o with | some a => .ok a | none => .err e) := by
    funext s; unfold M.okOr M.ofOut; cases o <;> rfl
  rw [this]; exact Sim.ofOut _
theorem Sim.unwrap (o : Option α) : Sim (M.unwrap o : M σ α) := by
  have : (M.unwrap o : M σ α) = M.ofOut (match o with | some a => .ok a | none => .panic .unwrap) := by
    funext s; unfold M.unwrap M.ofOut; cases o <;> rfl
  rw [this]; exact Sim.ofOut _
theorem Sim.ite {c : Prop} [Decidable c] {m n : M σ α} (hm : Sim m) (hn : Sim n) :
    Sim (if c then m else n) := by
  by_cases h : c <;> simpa [h]
theorem Sim.get_bind {f : σ → M σ β} (hf : ∀ s, Sim (f s)) (hp : ∀ s t, f (ext s t) = f s) :
    Sim (M.get >>= f) := by
  intro s hs
  refine ⟨(hf s s hs).1, fun t => ?_⟩
  show f (ext s t) (ext s t) = _
  rw [hp]
  exact (hf s s hs).2 t
theorem Sim.modify {f : σ → σ} (h1 : ∀ s, rd (f s) = rd s) (h2 : ∀ s, (bs (f s)).marker = (bs s).marker)
    (h3 : ∀ s t, f (ext s t) = ext (f s) t) : Sim (M.modify f) := fun s hs => by
  refine ⟨?_, fun t => by show (Out.ok (), f (ext s t)) = _; rw [h3]; rfl⟩
  show Inside (f s)
  unfold Inside
  rw [h1, h2]
  exact hs
theorem Sim.foldM {f : β → α → M σ β} (hf : ∀ b a, Sim (f b a)) :
    ∀ (l : List α) (b : β), Sim (M.foldM l b f)
  | [], b => Sim.pure b
  | a :: l, b => Sim.bind (hf b a) fun b => Sim.foldM hf l b
end

/-- One step of `sim`. -/
macro "sim1" : tactic => `(tactic| first
  | with_reducible exact Sim.pure _ | with_reducible exact Sim.throw _ | with_reducible exact Sim.panic _
  | with_reducible exact Sim.diverge
  | with_reducible exact Sim.ofOut _ | with_reducible exact Sim.idx _ _ | with_reducible exact Sim.unwrap _
  | with_reducible exact Sim.okOr _ _ | with_reducible assumption
  | ((with_reducible apply Sim.modify) <;> intros <;> rfl)
  | ((with_reducible refine Sim.get_bind (fun _ => ?_) ?_) <;> [skip; (intro _ _; rfl)])
  | with_reducible refine Sim.bind ?_ fun _ => ?_ | with_reducible apply Sim.ite)

/-- Proves `Sim` of an action made of the basic operations. -/
macro "sim" : tactic => `(tactic| repeat' (first | sim1 | dsimp only))

/-! ### The bit reader -/

/-- What skipping fill bytes finds inside of a scan. -/
theorem skipFill_data : ∀ {c : UInt8} {r : List UInt8}, EndedData (0xFF :: c :: r) → ∃ n r',
    (∀ t, skipFill c (r ++ t) = (n, r' ++ t)) ∧ (n = 0 ∧ EndedData r' ∨ n = 0xD9 ∨
      0xD0 ≤ n ∧ n ≤ 0xD7 ∧ EndedData r') := by
  intro c r h
  generalize hl : (0xFF :: c :: r : List UInt8) = l at h
  induction h generalizing c r with
  | eoi =>
    cases hl
    exact ⟨0xD9, [], fun t => by cases t <;> simp [skipFill], Or.inr (Or.inl rfl)⟩
  | byte hb _ _ =>
    injection hl with h1 _
    exact absurd h1.symm hb
  | @stuffed r' hr _ =>
    cases hl
    exact ⟨0, r', fun t => by cases h : r' ++ t <;> simp [skipFill], Or.inl ⟨rfl, hr⟩⟩
  | @restart b r' h1 h2 hr _ =>
    cases hl
    have hb : ¬ b = 0xFF := by
      rintro rfl
      exact absurd h2 (by decide)
    exact ⟨b, r', fun t => by cases h : r' ++ t <;> simp [skipFill, hb], Or.inr (Or.inr ⟨h1, h2, hr⟩)⟩
  | fill hr ih =>
    injection hl with _ h2
    injection h2 with h3 h4
    subst h3 h4
    rcases r with _ | ⟨x, r⟩
    · cases hr with
      | byte h1 h2 => exact absurd rfl h1
    · obtain ⟨n, r', e, h⟩ := ih rfl
      exact ⟨n, r', fun t => by rw [List.cons_append, skipFill, if_pos rfl, e], h⟩

theorem fromU8_rst {n : UInt8} (h1 : 0xD0 ≤ n) (h2 : n ≤ 0xD7) : ∃ k, Marker.fromU8 n = some (.rst k) := by
  have e1 : 208 ≤ n.toNat := h1
  have e2 : n.toNat ≤ 215 := h2
  unfold Marker.fromU8
  obtain h | h | h | h | h | h | h | h : n.toNat = 208 ∨ n.toNat = 209 ∨ n.toNat = 210 ∨ n.toNat = 211 ∨
    n.toNat = 212 ∨ n.toNat = 213 ∨ n.toNat = 214 ∨ n.toNat = 215 := by omega
  all_goals rw [h]; exact ⟨_, rfl⟩

/-- The result of a refill by one byte, with bytes appended to the unread ones. -/
def Step.ext : Step → List UInt8 → Step
  | .more s, t => .more (Zune.ext s t)
  | .stop s, t => .stop (Zune.ext s t)
  | .bad s, t => .bad (Zune.ext s t)

theorem refillByte_sim {s : B} (h : EndedData s.rd) (hm : s.bs.marker = none) :
    (match refillByte s with
      | .more s' => EndedData s'.rd ∧ s'.bs.marker = none
      | .stop s' => Inside s'
      | .bad _ => False) ∧ ∀ t, refillByte (ext s t) = (refillByte s).ext t := by
  obtain ⟨bs, rd⟩ := s
  dsimp only at h hm
  have step : ∀ {c r}, rd = 0xFF :: c :: r → c ≠ 0 → EndedData (0xFF :: c :: r) →
      (match refillByte ⟨bs, rd⟩ with
        | .more s' => EndedData s'.rd ∧ s'.bs.marker = none
        | .stop s' => Inside s'
        | .bad _ => False) ∧ ∀ t, refillByte (ext ⟨bs, rd⟩ t) = (refillByte ⟨bs, rd⟩).ext t := by
    intro c r hrd hc hd
    obtain ⟨n, r', e, h'⟩ := skipFill_data hd
    have e0 := e []
    rw [List.append_nil, List.append_nil] at e0
    subst hrd
    have hx : ∀ t, (ext ⟨bs, 0xFF :: c :: r⟩ t : B) = ⟨bs, 0xFF :: c :: (r ++ t)⟩ := fun _ => rfl
    rcases h' with ⟨rfl, h'⟩ | rfl | ⟨h1, h2, h'⟩
    · refine ⟨by simp [refillByte, readU8, hc, e0, h', hm], fun t => ?_⟩
      rw [hx]
      simp [refillByte, readU8, hc, e, e0, Step.ext, ext, Reads.put, Reads.rd]
    · have hk : Marker.fromU8 0xD9 = some .eoi := rfl
      refine ⟨by simp [refillByte, readU8, hc, e0, hk, Inside, Reads.bs], fun t => ?_⟩
      rw [hx]
      simp [refillByte, readU8, hc, e, e0, hk, Step.ext, ext, Reads.put, Reads.rd]
    · obtain ⟨k, hk⟩ := fromU8_rst h1 h2
      have hn : n ≠ 0 := by rintro rfl; exact absurd h1 (by decide)
      refine ⟨by simp [refillByte, readU8, hc, e0, hn, hk, Inside, Reads.bs, Reads.rd, h'], fun t => ?_⟩
      rw [hx]
      simp [refillByte, readU8, hc, e, e0, hn, hk, Step.ext, ext, Reads.put, Reads.rd]
  have h0 := h
  cases h with
  | eoi => exact step rfl (by decide) h0
  | @byte b r hb hr =>
    have hx : ∀ t, (ext ⟨bs, b :: r⟩ t : B) = ⟨bs, b :: (r ++ t)⟩ := fun _ => rfl
    refine ⟨by simp [refillByte, readU8, hb, hr, hm], fun t => ?_⟩
    rw [hx]
    simp [refillByte, readU8, hb, Step.ext, ext, Reads.put, Reads.rd]
  | @stuffed r hr =>
    have hx : ∀ t, (ext ⟨bs, 0xFF :: 0 :: r⟩ t : B) = ⟨bs, 0xFF :: 0 :: (r ++ t)⟩ := fun _ => rfl
    refine ⟨by simp [refillByte, readU8, hr, hm], fun t => ?_⟩
    rw [hx]
    simp [refillByte, readU8, Step.ext, ext, Reads.put, Reads.rd]
  | restart h1 h2 hr => exact step rfl (by rintro rfl; exact absurd h1 (by decide)) h0
  | @fill r hr => exact step rfl (by decide) h0

theorem refillBytes_sim : ∀ (n : Nat) {s : B}, EndedData s.rd → s.bs.marker = none →
    Inside (refillBytes n s).2 ∧ ∀ t, refillBytes n (ext s t) = ((refillBytes n s).1, ext (refillBytes n s).2 t)
  | 0, s, h, hm => ⟨Or.inr ⟨h, Or.inl hm⟩, fun t => rfl⟩
  | n + 1, s, h, hm => by
    obtain ⟨h1, h2⟩ := refillByte_sim h hm
    unfold refillBytes
    simp only [h2]
    rcases hr : refillByte s with s1 | s1 | s1 <;> rw [hr] at h1 <;> dsimp only at h1
    · exact refillBytes_sim n h1.1 h1.2
    · exact ⟨h1, fun t => rfl⟩

theorem refill_sim : Sim refill := by
  intro s hs
  by_cases hm : s.bs.marker = none
  · have hd : EndedData s.rd := by
      rcases hs with hs | ⟨hs, -⟩
      · rw [show (Reads.bs s).marker = s.bs.marker from rfl, hm] at hs; cases hs
      · exact hs
    by_cases hb : s.bs.bitsLeft ≤ 32
    · rw [refill_slow s hb hm]
      refine ⟨(refillBytes_sim 4 hd hm).1, fun t => ?_⟩
      rw [refill_slow (ext s t) hb hm]
      exact (refillBytes_sim 4 hd hm).2 t
    · have key : ∀ r, refill { s with rd := r } = (.ok (), { s with rd := r }) := by
        intro r; unfold refill; simp [hb, hm]
      have k0 : refill s = (.ok (), s) := key s.rd
      rw [k0]
      exact ⟨hs, fun t => key _⟩
  · have key : ∀ r, refill { s with rd := r } = (.ok (), ⟨{ s.bs with bitsLeft := 63 }, r⟩) := by
      intro r; unfold refill; simp [hm]
    have k0 : refill s = _ := key s.rd
    rw [k0]
    exact ⟨hs, fun t => key _⟩

theorem refillIfBelow_sim (n : Nat) : Sim (refillIfBelow n) := by
  intro s hs
  unfold refillIfBelow
  by_cases hb : s.bs.bitsLeft < n
  · rw [if_pos hb]
    refine ⟨(refill_sim s hs).1, fun t => ?_⟩
    rw [if_pos (show (ext s t).bs.bitsLeft < n from hb)]
    exact (refill_sim s hs).2 t
  · rw [if_neg hb]
    exact ⟨hs, fun t => if_neg hb⟩

theorem getBitsM_sim (n : Nat) : Sim (getBitsM n) := fun s hs => ⟨hs, fun t => rfl⟩
theorem getBitM_sim : Sim getBitM := fun s hs => ⟨hs, fun t => rfl⟩
theorem setBlock_sim (b : List I16) (i : Nat) (v : I16) : Sim (setBlock b i v) := by
  have : setBlock b i v = M.ofOut (if i < b.length then .ok (b.set i v) else .panic .index) := by
    funext s; unfold setBlock M.ofOut; split <;> rfl
  rw [this]; exact Sim.ofOut _
theorem zz_sim (i : Nat) : Sim (zz i) := by unfold zz; sim

theorem slowLen_sim (mc : List Int) (w : Int) : ∀ n len, Sim (slowLen mc w n len)
  | 0, len => by unfold slowLen; sim
  | n + 1, len => by
    have := slowLen_sim mc w n (len + 1)
    unfold slowLen; sim

theorem decodeHuff_sim (t : HuffmanTable) (entry : Nat) : Sim (decodeHuff t entry) := by
  unfold decodeHuff
  sim
  exact slowLen_sim _ _ _ _

theorem decodeDc_sim (t : HuffmanTable) (p : I32) : Sim (decodeDc t p) := by
  unfold decodeDc
  sim
  · exact refillIfBelow_sim _
  · exact decodeHuff_sim _ _
  · exact getBitsM_sim _

theorem acLoop_sim (t : HuffmanTable) (l : List I16) : ∀ n pos b, Sim (acLoop t l n pos b)
  | 0, pos, b => by unfold acLoop; sim
  | n + 1, pos, b => by
    have ih := acLoop_sim t l n
    unfold acLoop
    sim
    all_goals first
      | exact ih _ _ | exact refill_sim | exact getBitsM_sim _ | exact setBlock_sim _ _ _ | exact zz_sim _
      | exact decodeHuff_sim _ _

theorem decodeAc_sim (t : HuffmanTable) (p : I32) (b : List I16) : Sim (decodeAc t p b) := by
  unfold decodeAc
  sim
  · exact setBlock_sim _ _ _
  · exact acLoop_sim _ _ _ _ _

/-! ### The scan -/

theorem handleRst_sim : Sim handleRst := by
  intro t hs
  have hx : ∀ x, (ext t x).io.bs.marker = t.io.bs.marker := fun _ => rfl
  unfold handleRst
  simp only [hx]
  rcases hs with hs | ⟨hd, hs | ⟨n, hs⟩⟩
  · have hs : t.io.bs.marker = some .eoi := hs
    simp only [hs]
    exact ⟨Or.inl hs, fun x => rfl⟩
  · have hs : t.io.bs.marker = none := hs
    simp only [hs]
    exact ⟨Or.inr ⟨hd, Or.inl hs⟩, fun x => rfl⟩
  · have hs : t.io.bs.marker = some (.rst n) := hs
    simp only [hs]
    exact ⟨Or.inr ⟨hd, Or.inl rfl⟩, fun x => rfl⟩

theorem countDown_sim : Sim countDown := by
  have : countDown = (M.modify fun t => { t with dec := { t.dec with todo := wrappingPred t.dec.todo } }) >>=
      fun _ => M.get >>= fun t => if t.dec.todo = 0 then handleRst else pure () := by
    funext t
    unfold countDown
    show _ = (if _ then handleRst else pure ()) _
    dsimp only
    split <;> rfl
  rw [this]
  have := handleRst_sim
  sim

theorem decodeBlock_sim (dc ac : HuffmanTable) (pos : Nat) (b : List I16) : Sim (decodeBlock dc ac pos b) := by
  intro t hs
  have hc : ∀ x, (ext t x).dec.components[pos]? = t.dec.components[pos]? := fun _ => rfl
  unfold decodeBlock
  simp only [hc]
  rcases t.dec.components[pos]? with _ | c
  · exact ⟨hs, fun x => rfl⟩
  · dsimp only
    unfold decodeMcuBlock
    rcases ac.acLookup with _ | l
    · exact ⟨hs, fun x => rfl⟩
    · dsimp only
      obtain ⟨h1, h2⟩ := decodeDc_sim dc c.dcPred t.io hs
      have hx : ∀ x, (ext t x).io = ext t.io x := fun _ => rfl
      rcases hd : decodeDc dc c.dcPred t.io with ⟨r, s1⟩
      simp only [hx, h2, hd]
      rw [hd] at h1
      cases r with
      | ok p =>
        obtain ⟨h3, h4⟩ := decodeAc_sim ac p b s1 h1
        refine ⟨h3, fun x => ?_⟩
        dsimp only
        rw [h4]
        rfl
      | err _ => exact ⟨h1, fun x => rfl⟩
      | panic _ => exact ⟨h1, fun x => rfl⟩
      | diverge => exact ⟨h1, fun x => rfl⟩

theorem decodeSample_sim (s : Scan) (v j pos : Nat) (dc ac : HuffmanTable) (c : Component)
    (temp : List (List I16)) (vh : Nat × Nat) : Sim (decodeSample s v j pos dc ac c temp vh) := by
  unfold decodeSample
  sim
  all_goals exact decodeBlock_sim _ _ _ _

theorem decodeComponent_sim (s : Scan) (v j : Nat) (temp : List (List I16)) (pos : Nat) :
    Sim (decodeComponent s v j temp pos) := by
  unfold decodeComponent
  sim
  exact Sim.foldM (fun _ _ => decodeSample_sim _ _ _ _ _ _ _ _ _) _ _

theorem decodeMcu_sim (s : Scan) (v j : Nat) : ∀ l temp, Sim (decodeMcu s v j l temp)
  | [], temp => by unfold decodeMcu; sim
  | pos :: rest, temp => by
    have ih := decodeMcu_sim s v j rest
    unfold decodeMcu
    refine Sim.bind (decodeComponent_sim _ _ _ _ _) fun temp => Sim.bind countDown_sim fun _ => ?_
    intro t hs
    have hg : ∀ (f : T → M T (List (List I16))) t, (M.get >>= f) t = f t t := fun _ _ => rfl
    have hx : ∀ x, (ext t x).io.bs.marker = t.io.bs.marker := fun _ => rfl
    simp only [hg, hx]
    rcases id hs with h | ⟨hd, h | ⟨n, h⟩⟩
    · have h : t.io.bs.marker = some .eoi := h
      simp only [h]
      exact ⟨hs, fun x => rfl⟩
    · have h : t.io.bs.marker = none := h
      simp only [h]
      exact ih temp t hs
    · have h : t.io.bs.marker = some (.rst n) := h
      simp only [h]
      exact ih temp t hs

theorem decodeStrip_sim (s : Scan) (temp : List (List I16)) : Sim (decodeStrip s temp) := by
  unfold decodeStrip
  refine Sim.foldM (fun _ _ => ?_) _ _
  dsimp only
  sim
  exact decodeMcu_sim _ _ _ _ _

theorem submit_sim (s : Scan) (temp : List (List I16)) : Sim (submit s temp) := by
  intro t hs
  have hx : ∀ x, (ext t x).jobs = t.jobs := fun _ => rfl
  unfold submit
  simp only [hx]
  by_cases h : t.jobs.length < s.outLen / s.chunk
  · simp only [if_pos h]
    exact ⟨hs, fun x => rfl⟩
  · simp only [if_neg h]
    exact ⟨hs, fun _ => trivial⟩

theorem strips_sim (s : Scan) : ∀ n, Sim (strips s n)
  | 0 => by unfold strips; sim
  | n + 1 => by
    unfold strips strip
    refine Sim.bind ?_ fun _ => strips_sim s n
    sim
    · exact decodeStrip_sim _ _
    · exact submit_sim _ _

end Zune
