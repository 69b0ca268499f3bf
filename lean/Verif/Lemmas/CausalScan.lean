import Verif.Lemmas.Causal
/-! The scans look only at the bytes they consume. -/

namespace Zune

variable {P : Marker → Prop}

theorem liftB_cau {α} {m : M B α} (h : Cau P m) : Cau P (liftB m) := by
  intro t v t' e hl
  unfold liftB at e
  rcases hm : m t.io with ⟨r, s⟩
  rw [hm] at e
  cases e
  obtain ⟨l, a, ha, e⟩ := h t.io v s hm hl
  refine ⟨l, a, ha, fun x => ?_⟩
  unfold liftB
  have := e x
  rw [show (Reads.put t (a ++ x)).io = Reads.put t.io (a ++ x) from rfl, this]
  rfl

/-- Header parsing inside a scan, as long as the pending marker is not in `P`. -/
theorem liftH_cau {α} {m : M H α} (h : LocE m) {t t' : T} {v : α} (e : liftH m t = (.ok v, t'))
    (hl : Live P t') (hm : ∀ k, t.io.bs.marker = some k → ¬ P k) :
    Live P t ∧ ∃ a, t.io.rd = a ++ t'.io.rd ∧
      ∀ x, liftH m (Reads.put t (a ++ x)) = (.ok v, Reads.put t' x) := by
  unfold liftH at e
  rcases hr : m ⟨t.dec, t.io.rd⟩ with ⟨r, ⟨d, rd⟩⟩
  rw [hr] at e
  cases e
  have hrd : rd ≠ [] := by
    rcases hl with hl | ⟨k, hk, hp⟩
    · exact hl
    · exact absurd hp (hm k hk)
  rcases h _ _ _ _ _ hr with ⟨a, ha, e⟩ | he
  · refine ⟨Or.inl (by show t.io.rd ≠ []; rw [ha]; simp [hrd]), a, ha, fun x => ?_⟩
    have := e x
    unfold liftH
    rw [show (⟨(Reads.put t (a ++ x)).dec, (Reads.put t (a ++ x)).io.rd⟩ : H) = ⟨t.dec, a ++ x⟩ from rfl, this]
    rfl
  · exact absurd he hrd

theorem handleRst_cau : Cau P handleRst := Cau.of_still fun t v t' e => by
  unfold handleRst at e
  dsimp only at e
  rcases hm : t.io.bs.marker with _ | k
  · rw [hm] at e
    cases e
    refine ⟨rfl, fun _ h => hm.symm.trans h, fun r => ?_⟩
    unfold handleRst
    rw [show (Reads.put t r).io.bs.marker = none from hm]
    rfl
  · rw [hm] at e
    cases k <;> cases e
    · refine ⟨rfl, fun _ h => (by cases h), fun r => ?_⟩
      unfold handleRst
      rw [show (Reads.put t r).io.bs.marker = _ from hm]
      rfl
    · refine ⟨rfl, fun _ h => hm.symm.trans h, fun r => ?_⟩
      unfold handleRst
      rw [show (Reads.put t r).io.bs.marker = _ from hm]
      rfl

theorem countDown_cau : Cau P countDown := by
  have : countDown = (M.modify fun t => { t with dec := { t.dec with todo := wrappingPred t.dec.todo } }) >>=
      fun _ => M.get >>= fun t => if t.dec.todo = 0 then handleRst else pure () := by
    funext t
    unfold countDown
    show _ = (if _ then handleRst else pure ()) _
    dsimp only
    split <;> rfl
  rw [this]
  have := handleRst_cau (P := P)
  cau

theorem decodeBlock_cau (dc ac : HuffmanTable) (pos : Nat) (b : List I16) : Cau P (decodeBlock dc ac pos b) := by
  intro t v t' e hl
  unfold decodeBlock at e
  rcases hc : t.dec.components[pos]? with _ | c
  · rw [hc] at e; cases e
  · rw [hc] at e
    unfold decodeMcuBlock at e
    rcases hac : ac.acLookup with _ | l
    · rw [hac] at e; cases e
    · rw [hac] at e
      dsimp only at e
      rcases hd : decodeDc dc c.dcPred t.io with ⟨r, s1⟩
      rw [hd] at e
      cases r with
      | ok p =>
        dsimp only at e
        rcases ha : decodeAc ac p b s1 with ⟨r, s2⟩
        rw [ha] at e
        cases e
        obtain ⟨l1, q, hq, e2⟩ := decodeAc_cau ac p b s1 v s2 ha hl
        obtain ⟨l0, p', hp, e1⟩ := decodeDc_cau dc c.dcPred t.io p s1 hd l1
        refine ⟨l0, p' ++ q, ?_, fun x => ?_⟩
        · show t.io.rd = p' ++ q ++ s2.rd
          rw [List.append_assoc, ← show s1.rd = q ++ s2.rd from hq]; exact hp
        · unfold decodeBlock
          rw [show (Reads.put t (p' ++ q ++ x)).dec.components[pos]? = some c from hc]
          dsimp only
          unfold decodeMcuBlock
          rw [hac]
          dsimp only
          have h1 := e1 (q ++ x)
          have h2 := e2 x
          rw [show (Reads.put t (p' ++ q ++ x)).io = Reads.put t.io (p' ++ (q ++ x)) from by
            rw [List.append_assoc]; rfl, h1]
          dsimp only
          rw [h2]
          rfl
      | err _ => cases e
      | panic _ => cases e
      | diverge => cases e

theorem decodeSample_cau (s : Scan) (v j pos : Nat) (dc ac : HuffmanTable) (c : Component)
    (temp : List (List I16)) (vh : Nat × Nat) : Cau P (decodeSample s v j pos dc ac c temp vh) := by
  have := decodeBlock_cau (P := P) dc ac pos
  unfold decodeSample
  cau
  all_goals first | exact this _ | (cau; exact this _)

theorem decodeComponent_cau (s : Scan) (v j : Nat) (temp : List (List I16)) (pos : Nat) :
    Cau P (decodeComponent s v j temp pos) := by
  unfold decodeComponent
  cau
  exact Cau.foldM (fun _ _ => decodeSample_cau _ _ _ _ _ _ _ _ _) _ _

theorem decodeMcu_cau (s : Scan) (v0 j : Nat) : ∀ l temp, Cau (· = .eoi) (decodeMcu s v0 j l temp)
  | [], temp => by unfold decodeMcu; cau
  | pos :: rest, temp => by
    have ih := decodeMcu_cau s v0 j rest
    unfold decodeMcu
    refine Cau.bind (decodeComponent_cau _ _ _ _ _) fun temp => Cau.bind countDown_cau fun _ => ?_
    intro t v t' e hl
    generalize hf : (fun (k : Option Marker) => (match k with
      | none => decodeMcu s v0 j rest temp
      | some .eoi => pure temp
      | some (.rst _) => decodeMcu s v0 j rest temp
      | some m => do
        liftH (parseMarkerInner m)
        decodeMcu s v0 j rest temp : M T (List (List I16)))) = f
    have hg : ∀ t, (M.get >>= fun t : T => f t.io.bs.marker) t = f t.io.bs.marker t := fun t => rfl
    have hk : ∀ k, t.io.bs.marker = k → (f k t = (.ok v, t') → Live (· = .eoi) t ∧ ∃ a,
        t.io.rd = a ++ t'.io.rd ∧ ∀ x, f k (Reads.put t (a ++ x)) = (.ok v, Reads.put t' x)) →
        Live (· = .eoi) t ∧ ∃ a, t.io.rd = a ++ t'.io.rd ∧
          ∀ x, (M.get >>= fun t : T => f t.io.bs.marker) (Reads.put t (a ++ x)) = (.ok v, Reads.put t' x) := by
      intro k hk h
      have e1 : f t.io.bs.marker t = (.ok v, t') := by rw [← hg, ← hf]; exact e
      rw [hk] at e1
      obtain ⟨l, a, ha, e2⟩ := h e1
      refine ⟨l, a, ha, fun x => ?_⟩
      rw [hg, show (Reads.put t (a ++ x)).io.bs.marker = k from hk]
      exact e2 x
    have goal : Live (· = .eoi) t ∧ ∃ a, t.io.rd = a ++ t'.io.rd ∧
          ∀ x, (M.get >>= fun t : T => f t.io.bs.marker) (Reads.put t (a ++ x)) = (.ok v, Reads.put t' x) := by
      have h1 := fun h => ih temp t v t' h hl
      have h2 := fun h => Cau.pure (P := (· = .eoi)) temp t v t' h hl
      have h3 : ∀ k, t.io.bs.marker = some k → k ≠ .eoi →
          (liftH (parseMarkerInner k) >>= fun _ => decodeMcu s v0 j rest temp) t = (.ok v, t') →
          Live (· = .eoi) t ∧ ∃ a, t.io.rd = a ++ t'.io.rd ∧ ∀ x,
            (liftH (parseMarkerInner k) >>= fun _ => decodeMcu s v0 j rest temp) (Reads.put t (a ++ x)) =
              (.ok v, Reads.put t' x) := by
        intro k hk hne h
        obtain ⟨u, t1, e1, e2⟩ := M.bind_ok_inv h
        obtain ⟨l1, b, hb, e4⟩ := ih temp t1 v t' e2 hl
        obtain ⟨l0, a, ha, e3⟩ := liftH_cau (P := (· = .eoi)) (locE_parseMarkerInner k) e1 l1 (fun k' h' => by
          rw [hk] at h'; cases h'; exact hne)
        exact ⟨l0, a ++ b, by rw [ha, show t1.io.rd = b ++ t'.io.rd from hb, List.append_assoc], fun x => by
          rw [List.append_assoc, M.bind_ok (e3 (b ++ x))]
          exact e4 x⟩
      rcases hm : t.io.bs.marker with _ | k
      · exact hk _ hm (by rw [← hf]; exact h1)
      · refine hk _ hm ?_
        rw [← hf]
        cases k
        case eoi => exact h2
        case rst => exact h1
        all_goals exact h3 _ hm (by simp)
    rw [← hf] at goal
    exact goal

theorem decodeStrip_cau (s : Scan) (temp : List (List I16)) : Cau (· = .eoi) (decodeStrip s temp) := by
  unfold decodeStrip
  refine Cau.foldM (fun _ _ => ?_) _ _
  dsimp only
  cau
  exact decodeMcu_cau _ _ _ _ _

theorem submit_cau (s : Scan) (temp : List (List I16)) : Cau P (submit s temp) := Cau.of_still fun t v t' e => by
  unfold submit at e
  by_cases h : t.jobs.length < s.outLen / s.chunk
  · rw [if_pos h] at e
    cases e
    exact ⟨rfl, fun _ h => h, fun r => by
      unfold submit
      rw [if_pos (show (Reads.put t r).jobs.length < _ from h)]
      rfl⟩
  · rw [if_neg h] at e; cases e

theorem strip_cau (s : Scan) : Cau (· = .eoi) (strip s) := by
  unfold strip
  cau
  · exact decodeStrip_cau _ _
  · exact submit_cau _ _

theorem strips_cau (s : Scan) : ∀ n, Cau (· = .eoi) (strips s n)
  | 0 => by unfold strips; cau
  | n + 1 => by
    unfold strips
    exact Cau.bind (strip_cau s) fun _ => strips_cau s n

end Zune
