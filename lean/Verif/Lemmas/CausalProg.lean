import Verif.Lemmas.CausalScan
/-! The progressive scans look only at the bytes they consume. -/

namespace Zune

variable {P : Marker → Prop}

theorem progTable_cau (l : List (Option HuffmanTable)) (i : Nat) : Cau P (progTable l i) := by
  have : progTable l i = M.ofOut (match l[i]? with | some (some h) => .ok h | _ => .err .format) := by
    funext t
    unfold progTable M.ofOut
    rcases l[i]? with _ | _ | h <;> rfl
  rw [this]; exact Cau.of_ofOut _

theorem setPred_cau (k : Nat) (p : I32) : Cau P (setPred k p) := Cau.of_still fun t v t' e => by
  cases e
  exact ⟨rfl, fun _ h => h, fun _ => rfl⟩

theorem progDc_cau (k : Nat) (c : I16) (table : HuffmanTable) : Cau P (progDc k c table) := by
  unfold progDc
  cau
  · exact liftB_cau (decodeProgDcFirst_cau _ _)
  · exact setPred_cau _ _
  · exact liftB_cau (decodeProgDcRefine_cau _)

theorem progBlock_cau (k mw i j : Nat) (b : List I16) : Cau P (progBlock k mw i j b) := by
  unfold progBlock
  cau
  all_goals first
    | exact progTable_cau _ _ | exact progDc_cau _ _ _ | exact liftB_cau (decodeMcuAcFirst_cau _ _)
    | exact liftB_cau (decodeMcuAcRefine_cau _ _)

theorem progLoop_cau (k mw mh : Nat) : ∀ n i j bufs, Cau P (progLoop k mw mh n i j bufs)
  | 0, i, j, bufs => by unfold progLoop; cau
  | n + 1, i, j, bufs => by
    have ih := progLoop_cau k mw mh n
    unfold progLoop
    cau
    all_goals first | exact ih _ _ _ | exact countDown_cau | exact progBlock_cau _ _ _ _ _

theorem interSample_cau (i j n : Nat) (comp : Component) (table : HuffmanTable) (bufs : List (List I16))
    (vh : Nat × Nat) : Cau P (interSample i j n comp table bufs vh) := by
  unfold interSample
  cau
  exact progDc_cau _ _ _

theorem interComponent_cau (i j : Nat) (bufs : List (List I16)) (k : Nat) : Cau P (interComponent i j bufs k) := by
  unfold interComponent
  cau
  · exact progTable_cau _ _
  · exact Cau.foldM (fun _ _ => interSample_cau _ _ _ _ _ _ _) _ _
  · exact countDown_cau

theorem parseEntropy_cau (bufs : List (List I16)) : Cau P (parseEntropy bufs) := by
  unfold parseEntropy
  refine Cau.get_bind (fun t => ?_) (fun _ _ => rfl)
  refine Cau.bind (Cau.of_ofOut _) fun _ => ?_
  refine Cau.bind (Cau.modify (fun _ => rfl) (fun _ _ h => by cases h) (fun _ _ => rfl)) fun _ => ?_
  cau
  · exact progLoop_cau _ _ _ _ _ _ _
  · exact Cau.foldM (fun _ _ => Cau.foldM (fun _ _ => interComponent_cau _ _ _ _) _ _) _ _

theorem scanMarker_cau : ∀ {ff : Bool} {r r' : List UInt8} {m : Marker}, scanMarker ff r = (some m, r') →
    r ≠ [] ∧ ∃ a, r = a ++ r' ∧ ∀ t, scanMarker ff (a ++ t) = (some m, t)
  | _, [], _, _, h => by simp [scanMarker] at h
  | false, b :: r, _, _, h => by
    rw [scanMarker] at h
    obtain ⟨-, a, ha, e⟩ := scanMarker_cau h
    exact ⟨by simp, b :: a, by rw [ha]; rfl, fun t => by rw [List.cons_append, scanMarker, e]⟩
  | true, b :: r, _, _, h => by
    rw [scanMarker] at h
    refine ⟨by simp, ?_⟩
    by_cases hb : b = 0xFF
    · rw [if_pos hb] at h
      obtain ⟨-, a, ha, e⟩ := scanMarker_cau h
      exact ⟨b :: a, by rw [ha]; rfl, fun t => by rw [List.cons_append, scanMarker, if_pos hb, e]⟩
    · rw [if_neg hb] at h
      by_cases h0 : b = 0
      · rw [if_pos h0] at h
        obtain ⟨-, a, ha, e⟩ := scanMarker_cau h
        exact ⟨b :: a, by rw [ha]; rfl, fun t => by rw [List.cons_append, scanMarker, if_neg hb, if_pos h0, e]⟩
      · rw [if_neg h0] at h
        injection h with h1 h2
        exact ⟨[b], by rw [h2]; rfl, fun t => by
          rw [List.cons_append, scanMarker, if_neg hb, if_neg h0, h1]; rfl⟩

/-- Looking for the next marker succeeds only if there is one, so that the end of the data is not passed. -/
theorem getMarker_cau {t t' : T} {m : Marker} (h : getMarker t = (.ok m, t')) : Live (fun _ => True) t ∧
    ∃ a, t.io.rd = a ++ t'.io.rd ∧ ∀ x, getMarker (Reads.put t (a ++ x)) = (.ok m, Reads.put t' x) := by
  unfold getMarker at h
  rcases hm : t.io.bs.marker with _ | k
  · rw [hm] at h
    dsimp only at h
    rcases hs : scanMarker false t.io.rd with ⟨_ | k, r⟩
    · rw [hs] at h; cases h
    · rw [hs] at h
      cases h
      obtain ⟨h1, a, ha, e⟩ := scanMarker_cau hs
      refine ⟨Or.inl h1, a, ha, fun x => ?_⟩
      unfold getMarker
      rw [show (Reads.put t (a ++ x)).io.bs.marker = none from hm]
      dsimp only
      rw [show scanMarker false (Reads.put t (a ++ x)).io.rd = _ from e x]
      rfl
  · rw [hm] at h
    cases h
    refine ⟨Or.inr ⟨m, hm, trivial⟩, [], rfl, fun x => ?_⟩
    unfold getMarker
    rw [show (Reads.put t ([] ++ x)).io.bs.marker = some m from hm]
    rfl

theorem liftH_loc {α} {m : M H α} (h : Loc m) {t t' : T} {v : α} (e : liftH m t = (.ok v, t')) :
    ∃ a, t.io.rd = a ++ t'.io.rd ∧ ∀ x, liftH m (Reads.put t (a ++ x)) = (.ok v, Reads.put t' x) := by
  unfold liftH at e
  rcases hr : m ⟨t.dec, t.io.rd⟩ with ⟨r, ⟨d, rd⟩⟩
  rw [hr] at e
  cases e
  obtain ⟨a, ha, e⟩ := h _ _ _ _ _ hr
  refine ⟨a, ha, fun x => ?_⟩
  have := e x
  unfold liftH
  rw [show (⟨(Reads.put t (a ++ x)).dec, (Reads.put t (a ++ x)).io.rd⟩ : H) = ⟨t.dec, a ++ x⟩ from rfl, this]
  rfl

theorem liftH_parseHuffman_nil (t : T) (h : t.io.rd = []) : (liftH parseHuffman t).1 ≠ .ok () := by
  unfold liftH parseHuffman
  rw [h]
  simp [M.bind_apply, readU16]

theorem liftH_parseSos_nil (t : T) (h : t.io.rd = []) : (liftH parseSos t).1 ≠ .ok () := by
  unfold liftH parseSos
  rw [h]
  simp [M.bind_apply, readU16]

theorem scanLoop_cau : ∀ (fuel seen : Nat) (m : Marker) (bufs : List (List I16)) (t t' : T) (v : List (List I16)),
    scanLoop fuel seen m bufs t = (.ok v, t') →
    ∃ a, t.io.rd = a ++ t'.io.rd ∧ ∀ x fuel', a.length < fuel' →
      scanLoop fuel' seen m bufs (Reads.put t (a ++ x)) = (.ok v, Reads.put t' x) := by
  have still : ∀ (seen : Nat) (m : Marker) (bufs v : List (List I16)) (t t' : T),
      (∀ f, scanLoop (f + 1) seen m bufs = pure bufs) → (pure bufs : M T _) t = (.ok v, t') →
      ∃ a, t.io.rd = a ++ t'.io.rd ∧ ∀ x fuel', a.length < fuel' →
        scanLoop fuel' seen m bufs (Reads.put t (a ++ x)) = (.ok v, Reads.put t' x) := by
    intro seen m bufs v t t' hs h
    cases h
    refine ⟨[], rfl, fun x fuel' hf => ?_⟩
    obtain ⟨f, rfl⟩ : ∃ f, fuel' = f + 1 := ⟨fuel' - 1, by simp at hf; omega⟩
    rw [hs]
    rfl
  intro fuel
  induction fuel with
  | zero =>
    intro seen m bufs t t' v h
    unfold scanLoop at h
    by_cases hm : m = .eoi
    · rw [if_neg (by simp [hm])] at h
      subst hm
      exact still _ _ _ _ _ _ (fun f => by rw [scanLoop]) h
    · rw [if_pos hm] at h; cases h
  | succ fuel ih =>
    intro seen m bufs t t' v h
    cases m
    case dht =>
      rw [scanLoop] at h
      obtain ⟨u, t1, h1, h⟩ := M.bind_ok_inv h
      obtain ⟨m, t2, h2, h3⟩ := M.bind_ok_inv h
      obtain ⟨a, ha, ea⟩ := liftH_loc loc_parseHuffman h1
      obtain ⟨-, b, hb, eb⟩ := getMarker_cau h2
      obtain ⟨c, hc, ec⟩ := ih _ _ _ _ _ _ h3
      have hne : a ≠ [] := by
        intro he
        have := ea []
        rw [he] at this
        exact liftH_parseHuffman_nil _ rfl (by rw [this])
      have hlen : 0 < a.length := List.length_pos_iff.mpr hne
      refine ⟨a ++ (b ++ c), by rw [ha, hb, hc]; simp only [List.append_assoc], fun x fuel' hf => ?_⟩
      obtain ⟨f, rfl⟩ : ∃ f, fuel' = f + 1 := ⟨fuel' - 1, by omega⟩
      rw [scanLoop, List.append_assoc, M.bind_ok (ea _), List.append_assoc, M.bind_ok (eb _)]
      exact ec x f (by simp at hf; omega)
    case sos =>
      rw [scanLoop] at h
      obtain ⟨u, t1, h1, h⟩ := M.bind_ok_inv h
      obtain ⟨a, ha, ea⟩ := liftH_loc loc_parseSos h1
      have hne : a ≠ [] := by
        intro he
        have := ea []
        rw [he] at this
        exact liftH_parseSos_nil _ rfl (by rw [this])
      have hlen : 0 < a.length := List.length_pos_iff.mpr hne
      obtain ⟨u', t2, h2, h⟩ := M.bind_ok_inv h
      obtain ⟨bufs', t3, h3, h⟩ := M.bind_ok_inv h
      obtain ⟨m, t4, h4, h⟩ := M.bind_ok_inv h
      obtain ⟨lb, b, hb, eb⟩ := getMarker_cau h4
      obtain ⟨-, c, hc, ec⟩ := parseEntropy_cau bufs _ _ _ h3 lb
      have h5 : (if seen + 1 > t4.dec.options.getMaxScans then M.throw .format
        else M.modify (fun t => { t with io := { t.io with bs := t.io.bs.reset } }) >>= fun _ =>
          scanLoop fuel (seen + 1) m bufs' : M T (List (List I16))) t4 = (.ok v, t') := h
      by_cases hs : seen + 1 > t4.dec.options.getMaxScans
      · rw [if_pos hs] at h5; cases h5
      · rw [if_neg hs] at h5
        obtain ⟨u'', t5, h6, h7⟩ := M.bind_ok_inv h5
        obtain ⟨d, hd, ed⟩ := ih _ _ _ _ _ _ h7
        cases h2
        cases h6
        refine ⟨a ++ (c ++ (b ++ d)), ?_, fun x fuel' hf => ?_⟩
        · rw [ha]
          rw [show t1.io.rd = c ++ t3.io.rd from hc, hb, show t4.io.rd = d ++ t'.io.rd from hd]
          simp only [List.append_assoc]
        · obtain ⟨f, rfl⟩ : ∃ f, fuel' = f + 1 := ⟨fuel' - 1, by omega⟩
          rw [scanLoop, show a ++ (c ++ (b ++ d)) ++ x = a ++ (c ++ (b ++ (d ++ x))) by
            simp only [List.append_assoc], M.bind_ok (ea _)]
          refine (M.bind_ok (show M.modify _ _ = (.ok (), _) from rfl)).trans ?_
          refine (M.bind_ok (ec (b ++ (d ++ x)))).trans ?_
          refine (M.bind_ok (eb (d ++ x))).trans ?_
          refine (M.bind_ok (show M.get _ = (.ok _, _) from rfl)).trans ?_
          dsimp only
          rw [if_neg (show ¬ seen + 1 > (Reads.put t4 (d ++ x)).dec.options.getMaxScans from hs)]
          refine (M.bind_ok (show M.modify _ _ = (.ok (), _) from rfl)).trans ?_
          exact ed x f (by simp at hf; omega)
    all_goals exact still _ _ _ _ _ _ (fun f => rfl) h

theorem progScans_cau {bufs v : List (List I16)} {t t' : T} (h : progScans bufs t = (.ok v, t')) :
    ∃ a, t.io.rd = a ++ t'.io.rd ∧ ∀ x, progScans bufs (Reads.put t (a ++ x)) = (.ok v, Reads.put t' x) := by
  unfold progScans at h
  obtain ⟨bufs', t1, h1, h⟩ := M.bind_ok_inv h
  obtain ⟨m, t2, h2, h⟩ := M.bind_ok_inv h
  have h3 : scanLoop (t2.io.rd.length + 1) 1 m bufs' t2 = (.ok v, t') := h
  obtain ⟨b, hb, eb⟩ := scanLoop_cau _ _ _ _ _ _ _ h3
  have h4 : Live (fun _ => True) t1 ∧ t1.io.rd = t2.io.rd ∧
      ∀ x, takeMarker (Reads.put t1 x) = (.ok m, Reads.put t2 x) := by
    unfold takeMarker at h2
    rcases hm : t1.io.bs.marker with _ | k
    · rw [hm] at h2; cases h2
    · rw [hm] at h2
      cases h2
      refine ⟨Or.inr ⟨m, hm, trivial⟩, rfl, fun x => ?_⟩
      unfold takeMarker
      rw [show (Reads.put t1 x).io.bs.marker = some m from hm]
      rfl
  obtain ⟨l, e1, e2⟩ := h4
  obtain ⟨-, a, ha, ea⟩ := parseEntropy_cau bufs _ _ _ h1 l
  refine ⟨a ++ b, by rw [show t.io.rd = a ++ t1.io.rd from ha, e1, hb, List.append_assoc], fun x => ?_⟩
  unfold progScans
  rw [List.append_assoc, M.bind_ok (ea _), M.bind_ok (e2 _)]
  exact eb x _ (by show b.length < (b ++ x).length + 1; simp; omega)

end Zune
