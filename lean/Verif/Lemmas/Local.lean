import Verif.Model.Headers
import Verif.Lemmas.Wp
/-! Header parsers look only at the bytes they consume. -/

namespace Zune

/-- If `m` succeeds then it consumed a prefix `a` of the input, and it does the same on any input
that starts with `a`. -/
def Loc {α} (m : M H α) : Prop := ∀ d rd v d' rd', m ⟨d, rd⟩ = (.ok v, ⟨d', rd'⟩) →
  ∃ a, rd = a ++ rd' ∧ ∀ t, m ⟨d, a ++ t⟩ = (.ok v, ⟨d', t⟩)

/-- Like `Loc`, but the end of the input may have been reached by skipping past it. -/
def LocE {α} (m : M H α) : Prop := ∀ d rd v d' rd', m ⟨d, rd⟩ = (.ok v, ⟨d', rd'⟩) →
  (∃ a, rd = a ++ rd' ∧ ∀ t, m ⟨d, a ++ t⟩ = (.ok v, ⟨d', t⟩)) ∨ rd' = []

section
variable {α β : Type}

/-- Inversion of a sequence that ended with `ok`. -/
theorem M.bind_ok_inv {σ : Type} {m : M σ α} {f : α → M σ β} {s s' : σ} {b : β}
    (h : (m >>= f) s = (.ok b, s')) : ∃ a s1, m s = (.ok a, s1) ∧ f a s1 = (.ok b, s') := by
  rw [M.bind_apply] at h
  rcases hm : m s with ⟨_ | _ | _ | _, s1⟩ <;> rw [hm] at h <;> simp at h
  exact ⟨_, _, rfl, h⟩

theorem Loc.bind {m : M H α} {f : α → M H β} (hm : Loc m) (hf : ∀ a, Loc (f a)) :
    Loc (m >>= f) := by
  intro d rd v d' rd' h
  obtain ⟨a, ⟨d1, rd1⟩, h1, h2⟩ := M.bind_ok_inv h
  obtain ⟨p, hp, e1⟩ := hm _ _ _ _ _ h1
  obtain ⟨q, hq, e2⟩ := hf _ _ _ _ _ _ h2
  refine ⟨p ++ q, by rw [hp, hq, List.append_assoc], fun t => ?_⟩
  rw [List.append_assoc, M.bind_ok (e1 _)]
  exact e2 t

theorem Loc.pure (a : α) : Loc (Pure.pure a : M H α) := by
  intro d rd v d' rd' h
  simp at h
  obtain ⟨rfl, rfl, rfl⟩ := h
  exact ⟨[], rfl, fun t => rfl⟩
theorem Loc.throw (e : DecodeErr) : Loc (M.throw e : M H α) := by
  intro d rd v d' rd' h; simp at h
theorem Loc.panic (e : Site) : Loc (M.panic e : M H α) := by
  intro d rd v d' rd' h; simp at h
theorem Loc.diverge : Loc (M.diverge : M H α) := by
  intro d rd v d' rd' h; simp at h
theorem Loc.getDec : Loc getDec := by
  intro d rd v d' rd' h
  simp [Zune.getDec] at h
  obtain ⟨rfl, rfl, rfl⟩ := h
  exact ⟨[], rfl, fun t => rfl⟩
theorem Loc.modDec (f : Decoder → Decoder) : Loc (modDec f) := by
  intro d rd v d' rd' h
  simp [Zune.modDec] at h
  obtain ⟨rfl, rfl⟩ := h
  exact ⟨[], rfl, fun t => rfl⟩
theorem Loc.ofOut (o : Out α) : Loc (M.ofOut o) := by
  intro d rd v d' rd' h
  simp [M.ofOut] at h
  obtain ⟨rfl, rfl, rfl⟩ := h
  exact ⟨[], rfl, fun t => rfl⟩
theorem Loc.idx (l : List α) (i : Nat) : Loc (M.idx l i) := by
  intro d rd v d' rd' h
  unfold M.idx at *
  cases hl : l[i]? <;> simp [hl] at h
  obtain ⟨rfl, rfl, rfl⟩ := h
  exact ⟨[], rfl, fun t => rfl⟩
theorem Loc.okOr (o : Option α) (e : DecodeErr) : Loc (M.okOr o e) := by
  intro d rd v d' rd' h
  unfold M.okOr at *
  cases o <;> simp at h
  obtain ⟨rfl, rfl, rfl⟩ := h
  exact ⟨[], rfl, fun t => rfl⟩
theorem Loc.failIf (c : Bool) (e : DecodeErr) : Loc (M.failIf c e) := by
  intro d rd v d' rd' h
  unfold M.failIf at *
  cases c <;> simp at h
  obtain ⟨rfl, rfl⟩ := h
  exact ⟨[], rfl, fun t => rfl⟩
theorem Loc.readByte : Loc readByte := by
  intro d rd v d' rd' h
  cases rd with
  | nil => simp [Zune.readByte] at h
  | cons b r =>
    simp [Zune.readByte] at h
    obtain ⟨rfl, rfl, rfl⟩ := h
    exact ⟨[b], rfl, fun t => rfl⟩
theorem Loc.readU16 (e : DecodeErr) : Loc (readU16 e) := by
  intro d rd v d' rd' h
  rcases rd with _ | ⟨b, _ | ⟨c, r⟩⟩
  · simp [Zune.readU16] at h
  · simp [Zune.readU16] at h
  · simp [Zune.readU16] at h
    obtain ⟨rfl, rfl, rfl⟩ := h
    exact ⟨[b, c], rfl, fun t => rfl⟩
theorem Loc.readExact (n : Nat) (e : DecodeErr) : Loc (readExact n e) := by
  intro d rd v d' rd' h
  unfold Zune.readExact at *
  dsimp only at h
  by_cases hn : rd.length < n
  · rw [if_pos hn] at h; simp at h
  · rw [if_neg hn] at h
    simp at h
    obtain ⟨rfl, rfl, rfl⟩ := h
    refine ⟨rd.take n, (List.take_append_drop n rd).symm, fun t => ?_⟩
    have hl : (rd.take n).length = n := by simp; omega
    rw [if_neg (by simp; omega)]
    rw [List.take_append_of_le_length (by omega), List.drop_append_of_le_length (by omega)]
    rw [List.take_of_length_le (by omega), List.drop_of_length_le (by omega)]
    rfl
theorem Loc.ite {c : Prop} [Decidable c] {m n : M H α} (hm : Loc m) (hn : Loc n) :
    Loc (if c then m else n) := by
  by_cases h : c <;> simpa [h]

theorem Loc.toE {m : M H α} (h : Loc m) : LocE m := fun d rd v d' rd' e =>
  Or.inl (h d rd v d' rd' e)
end

/-- Proves `Loc` of a parser made of the basic operations. -/
macro "loc" : tactic => `(tactic| repeat (first
  | exact Loc.pure _ | exact Loc.throw _ | exact Loc.panic _ | exact Loc.diverge
  | exact Loc.getDec | exact Loc.modDec _ | exact Loc.ofOut _ | exact Loc.idx _ _
  | exact Loc.okOr _ _ | exact Loc.failIf _ _ | exact Loc.readByte | exact Loc.readU16 _
  | exact Loc.readExact _ _ | assumption
  | refine Loc.bind ?_ fun _ => ?_ | apply Loc.ite))

theorem loc_parseHuffmanLoop : ∀ fuel len, Loc (parseHuffmanLoop fuel len)
  | 0, len => by unfold parseHuffmanLoop; loc
  | fuel + 1, len => by
    have ih := loc_parseHuffmanLoop fuel
    unfold parseHuffmanLoop
    loc
    exact ih _
    loc
theorem loc_parseHuffman : Loc parseHuffman := by
  unfold parseHuffman; loc; exact loc_parseHuffmanLoop _ _; loc
theorem loc_parseDqtLoop : ∀ fuel len, Loc (parseDqtLoop fuel len)
  | 0, len => by unfold parseDqtLoop; loc
  | fuel + 1, len => by
    have ih := loc_parseDqtLoop fuel
    unfold parseDqtLoop
    loc
    exact ih _
    loc
theorem loc_parseDqt : Loc parseDqt := by
  unfold parseDqt; loc; exact loc_parseDqtLoop _ _
theorem loc_readComponents : ∀ n, Loc (readComponents n)
  | 0 => by unfold readComponents; loc
  | n + 1 => by
    have ih := loc_readComponents n
    unfold readComponents
    refine Loc.bind (Loc.readExact _ _) fun t => ?_
    split
    · loc
    · loc
theorem loc_setupComponents : ∀ cs, Loc (setupComponents cs)
  | [] => by unfold setupComponents; loc
  | c :: cs => by
    have ih := loc_setupComponents cs
    unfold setupComponents
    loc
theorem loc_parseStartOfFrame (sof : SofMarker) : Loc (parseStartOfFrame sof) := by
  unfold parseStartOfFrame
  loc
  · exact loc_readComponents _
  · loc
    · exact loc_setupComponents _
    · loc
theorem loc_findComponent (id : UInt8) (comps : List Component) :
    ∀ n j, Loc (findComponent id comps n j)
  | 0, j => by unfold findComponent; loc
  | n + 1, j => by
    have ih := loc_findComponent id comps n
    unfold findComponent
    loc
    exact ih _
theorem loc_sosComponents : ∀ n i seen, Loc (sosComponents n i seen)
  | 0, i, seen => by unfold sosComponents; loc
  | n + 1, i, seen => by
    have ih := loc_sosComponents n
    unfold sosComponents
    loc
    · exact loc_findComponent _ _ _ _
    · loc
      exact ih _ _
theorem loc_parseSos : Loc parseSos := by
  unfold parseSos
  loc
  · exact loc_sosComponents _ _ _
  · loc

/-- Skipping a segment that is complete. -/
theorem locE_skipSegment : LocE skipSegment := by
  intro d rd v d' rd' h
  rcases rd with _ | ⟨b, _ | ⟨c, r⟩⟩
  · simp [skipSegment, readU16, M.bind_apply] at h
  · simp [skipSegment, readU16, M.bind_apply] at h
  · have key : ∀ r, skipSegment ⟨d, b :: c :: r⟩ =
        if (b.toUInt16 <<< 8 ||| c.toUInt16) < 2 then (.err .format, ⟨d, r⟩)
        else (.ok (), ⟨d, r.drop ((b.toUInt16 <<< 8 ||| c.toUInt16).toNat - 2)⟩) := by
      intro r
      by_cases hl : (b.toUInt16 <<< 8 ||| c.toUInt16) < 2
      · simp [skipSegment, readU16, M.bind_apply, hl]
      · simp [skipSegment, readU16, M.bind_apply, hl, consume]
    rw [key] at h
    by_cases hl : (b.toUInt16 <<< 8 ||| c.toUInt16) < 2
    · rw [if_pos hl] at h; simp at h
    · rw [if_neg hl] at h
      generalize hn : (b.toUInt16 <<< 8 ||| c.toUInt16).toNat - 2 = n at *
      simp at h
      obtain ⟨rfl, rfl⟩ := h
      by_cases hr : r.length < n
      · right; simp; omega
      · left
        refine ⟨b :: c :: r.take n, by simp, fun t => ?_⟩
        rw [List.cons_append, List.cons_append, key, if_neg hl]
        have hl : (r.take n).length = n := by simp; omega
        rw [List.drop_append_of_le_length (by omega)]
        simp

theorem locE_parseMarkerInner (m : Marker) : LocE (parseMarkerInner m) := by
  unfold parseMarkerInner
  split
  · exact (loc_parseStartOfFrame _).toE
  · exact (Loc.bind (Loc.modDec _) fun _ => loc_parseStartOfFrame _).toE
  · exact (Loc.throw _).toE
  · exact loc_parseDqt.toE
  · exact loc_parseHuffman.toE
  · exact loc_parseSos.toE
  · exact (Loc.throw _).toE
  · exact (Loc.throw _).toE
  · exact (Loc.throw _).toE
  · apply Loc.toE; loc
  all_goals exact locE_skipSegment

theorem LocE.bindPure {α β} {m : M H α} {g : α → β} (hm : LocE m) :
    LocE (m >>= fun a => Pure.pure (g a)) := by
  intro d rd v d' rd' h
  obtain ⟨a, ⟨d1, rd1⟩, h1, h2⟩ := M.bind_ok_inv h
  simp at h2
  obtain ⟨rfl, rfl, rfl⟩ := h2
  rcases hm _ _ _ _ _ h1 with ⟨p, hp, e1⟩ | he
  · exact Or.inl ⟨p, hp, fun t => by rw [M.bind_ok (e1 _)]; rfl⟩
  · exact Or.inr he

theorem locE_headerStep (last : UInt8) (count : Nat) (m : UInt8) :
    LocE (headerStep last count m) := by
  unfold headerStep
  split
  · split
    · rename_i mk _
      have : (fun _ : Unit => (if mk = .sos then Pure.pure none else Pure.pure (some 0) :
          M H (Option Nat))) = fun _ => Pure.pure (if mk = .sos then none else some 0) := by
        funext _; split <;> rfl
      rw [this]
      exact (locE_parseMarkerInner mk).bindPure
    · exact locE_skipSegment.bindPure
  · exact (Loc.pure _).toE

theorem headerLoop_nil (fuel : Nat) (last : UInt8) (count : Nat) (d d' : Decoder)
    (rd' : List UInt8) : headerLoop fuel last count ⟨d, []⟩ ≠ (.ok (), ⟨d', rd'⟩) := by
  cases fuel <;> simp [headerLoop, M.bind_apply, readByte]

theorem headerStep_none_loc {last : UInt8} {count : Nat} {m : UInt8} {d d' : Decoder}
    {rd rd' : List UInt8} (h : headerStep last count m ⟨d, rd⟩ = (.ok none, ⟨d', rd'⟩)) :
    ∃ a, rd = a ++ rd' ∧ ∀ t, headerStep last count m ⟨d, a ++ t⟩ = (.ok none, ⟨d', t⟩) := by
  unfold headerStep at *
  by_cases hl : last = 0xFF
  · simp only [if_pos hl] at h ⊢
    rcases hm : Marker.fromU8 m with _ | mk
    · simp only [hm] at h
      obtain ⟨_, _, _, h2⟩ := M.bind_ok_inv h
      simp at h2
    · simp only [hm] at h ⊢
      obtain ⟨u, ⟨d1, rd1⟩, h1, h2⟩ := M.bind_ok_inv h
      by_cases hs : mk = .sos
      · subst hs
        simp at h2
        obtain ⟨rfl, rfl⟩ := h2
        obtain ⟨a, ha, e⟩ := loc_parseSos _ _ _ _ _ (show parseSos ⟨d, rd⟩ = _ from h1)
        refine ⟨a, ha, fun t => ?_⟩
        have e' : parseMarkerInner .sos ⟨d, a ++ t⟩ = (.ok u, ⟨d1, t⟩) := e t
        rw [M.bind_ok e']; simp
      · simp [hs] at h2
  · simp [if_neg hl] at h

/-- The marker loop looks only at what it consumes, and the bound on the rounds is irrelevant. -/
theorem headerLoop_loc : ∀ (fuel : Nat) (last : UInt8) (count : Nat) (d d' : Decoder)
    (rd rd' : List UInt8), headerLoop fuel last count ⟨d, rd⟩ = (.ok (), ⟨d', rd'⟩) →
    ∃ a, rd = a ++ rd' ∧ ∀ t fuel', (a ++ t).length < fuel' →
      headerLoop fuel' last count ⟨d, a ++ t⟩ = (.ok (), ⟨d', t⟩)
  | 0, _, _, _, _, _, _, h => by simp [headerLoop] at h
  | fuel + 1, last, count, d, d', rd, rd', h => by
    unfold headerLoop at h
    obtain ⟨m, ⟨d1, rd1⟩, h1, h2⟩ := M.bind_ok_inv h
    obtain ⟨o, ⟨d2, rd2⟩, h3, h4⟩ := M.bind_ok_inv h2
    have hrd : rd = m :: rd1 ∧ d = d1 := by
      cases rd with
      | nil => simp [readByte] at h1
      | cons b r => simp [readByte] at h1; simp [h1]
    obtain ⟨rfl, rfl⟩ := hrd
    cases o with
    | none =>
      simp at h4
      obtain ⟨rfl, rfl⟩ := h4
      obtain ⟨a, ha, e⟩ := headerStep_none_loc h3
      refine ⟨m :: a, by simp [ha], fun t fuel' hf => ?_⟩
      obtain ⟨f, rfl⟩ : ∃ f, fuel' = f + 1 := ⟨fuel' - 1, by simp at hf; omega⟩
      unfold headerLoop
      have hb : readByte ⟨d, m :: a ++ t⟩ = (.ok m, ⟨d, a ++ t⟩) := rfl
      rw [M.bind_ok hb, M.bind_ok (e t)]
      rfl
    | some c =>
      have h4' : (if d2.options.getStrictMode ∧ c + 1 > 3 then M.throw .formatStatic
          else headerLoop fuel m (c + 1) : M H Unit) ⟨d2, rd2⟩ = (.ok (), ⟨d', rd'⟩) := h4
      by_cases hc : d2.options.getStrictMode ∧ c + 1 > 3
      · simp only [if_pos hc] at h4'; simp at h4'
      · simp only [if_neg hc] at h4'
        rcases locE_headerStep _ _ _ _ _ _ _ _ h3 with ⟨a, ha, e⟩ | hnil
        · obtain ⟨b, hb, e2⟩ := headerLoop_loc _ _ _ _ _ _ _ h4'
          refine ⟨m :: (a ++ b), by simp [ha, hb], fun t fuel' hf => ?_⟩
          obtain ⟨f, rfl⟩ : ∃ f, fuel' = f + 1 := ⟨fuel' - 1, by simp at hf; omega⟩
          unfold headerLoop
          have hr : readByte ⟨d, m :: (a ++ b) ++ t⟩ = (.ok m, ⟨d, a ++ (b ++ t)⟩) := by
            simp [readByte]
          rw [M.bind_ok hr, M.bind_ok (e (b ++ t))]
          have hg : getDec ⟨d2, b ++ t⟩ = (.ok d2, ⟨d2, b ++ t⟩) := rfl
          show (getDec >>= _) _ = _
          rw [M.bind_ok hg]
          simp only [if_neg hc]
          exact e2 t f (by simp at hf ⊢; omega)
        · subst hnil
          exact absurd h4' (headerLoop_nil _ _ _ _ _ _)

end Zune
