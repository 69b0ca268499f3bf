import Verif.Lemmas.JobLen
import Verif.Props.Trailing
/-! C64: damage does not reach the rows that were decoded before it. -/

namespace Zune

open M (wp wp_bind wp_get)

/-- Strips add jobs, one each, whose results are chunks of the output. -/
theorem strips_jobs {s : Scan} : ∀ {n : Nat} {t t' : T}, t.dec.specEnd ≤ 63 → t.io.bs.specEnd ≤ 63 →
    strips s n t = (.ok (), t') → t'.dec.specEnd ≤ 63 ∧ t'.io.bs.specEnd ≤ 63 ∧
      ∃ l, t'.jobs = t.jobs ++ l ∧ l.length = n ∧ ∀ o ∈ l, ∀ p, o = .ok p → p.length = s.chunk
  | 0, t, t', h1, h2, h => by
    cases h
    exact ⟨h1, h2, [], by simp, rfl, fun o ho => by cases ho⟩
  | n + 1, t, t', h1, h2, h => by
    unfold strips strip at h
    obtain ⟨_, t1, e1, e2⟩ := M.bind_ok_inv h
    have e1 : (M.ofOut (allocTemp s t.dec) >>= fun temp => decodeStrip s temp >>= fun temp => submit s temp) t =
      (.ok (), t1) := e1
    obtain ⟨temp, t2, e3, e4⟩ := M.bind_ok_inv e1
    obtain ⟨temp', t3, e5, e6⟩ := M.bind_ok_inv e4
    have ht : t2 = t := by
      unfold M.ofOut at e3
      injection e3 with _ e3
      exact e3.symm
    subst ht
    have hd := M.wp_ok (wpT_decodeStrip stable_spec s temp (t := t2) (rd0 := t2.io.rd)
      ⟨h1, List.suffix_refl _, h2⟩) e5
    unfold submit at e6
    by_cases hj : t3.jobs.length < s.outLen / s.chunk
    · rw [if_pos hj] at e6
      injection e6 with _ e6
      subst e6
      obtain ⟨k1, k2, l, k3, k4, k5⟩ := strips_jobs
        (t := { t3 with jobs := t3.jobs ++ [postProcess s.idct s.color s.comps s.inCs s.outCs s.width temp'
          (List.replicate s.chunk 0)] }) hd.1.dec hd.1.se e2
      refine ⟨k1, k2, postProcess s.idct s.color s.comps s.inCs s.outCs s.width temp'
        (List.replicate s.chunk 0) :: l, ?_, by rw [List.length_cons, k4], ?_⟩
      · rw [k3]
        dsimp only
        rw [hd.2, List.append_assoc]
        rfl
      · intro o ho p hp
        rcases List.mem_cons.1 ho with rfl | ho
        · rw [length_postProcess hp, List.length_replicate]
        · exact k5 o ho p hp
    · rw [if_neg hj] at e6
      cases e6

theorem strips_split (s : Scan) : ∀ (n k : Nat), strips s (n + k) = strips s n >>= fun _ => strips s k
  | 0, k => by rw [Nat.zero_add]; rfl
  | n + 1, k => by
    rw [show n + 1 + k = n + k + 1 by omega]
    funext t
    show (strip s >>= fun _ => strips s (n + k)) t = ((strip s >>= fun _ => strips s n) >>= fun _ => strips s k) t
    rw [strips_split s n k]
    simp only [M.bind_apply]
    rcases strip s t with ⟨_ | _ | _ | _, t1⟩ <;> rfl

theorem headers_specEnd {d d1 : Decoder} {buf r : List UInt8}
    (h : decodeHeaders ⟨d, buf⟩ = (.ok (), ⟨d1, r⟩)) : d1.specEnd ≤ 63 :=
  (M.wp_ok (wpT_decodeHeaders (I := fun _ => True) (fun _ _ => trivial) buf (d := d) trivial) h).2

/-- After the first `n` strips of the baseline file `buf`, which make up the first `len` bytes of the output,
the bytes `rest` are unread. -/
def StripsRead (d : Decoder) (buf : List UInt8) (n len : Nat) (rest : List UInt8) : Prop :=
  ∃ d1 d2 r s t, decodeHeaders ⟨d, buf⟩ = (.ok (), ⟨d1, r⟩) ∧ d1.isProgressive = false ∧
    baselineSetup ⟨d1, r⟩ = (.ok s, ⟨d2, r⟩) ∧ n ≤ s.mcuHeight ∧
    strips s n (scanStart d2 r) = (.ok (), t) ∧ t.io.rd = rest ∧
    len = n * (8 * d2.hMax * d2.vMax) * (d2.info.width.toNat * d2.options.getOutColorspace.numComponents)

/-- The parts that precede the rest of a run. -/
theorem assemble_prefix {J L : List (Out (List UInt8))} {out : List UInt8} {c outLen keep : Nat}
    (hJ : ∀ o ∈ J, ∀ p, o = .ok p → p.length = c)
    (h : (joinPool (.ok ()) (J ++ L)).map (assemble outLen keep) = .ok out) :
    ∃ P : List (List UInt8), J = P.map .ok ∧ ∀ i, i < J.length * c → i < out.length → out[i]? = P.flatten[i]? := by
  unfold joinPool at h
  by_cases hu : (J ++ L).any Out.isUnsound = true
  · rw [if_pos hu] at h; cases h
  · rw [if_neg hu] at h
    dsimp only at h
    rcases hc : Out.collect (J ++ L) with parts | _ | _ | _ <;> rw [hc] at h <;> try cases h
    rw [Out.collect_ok_iff] at hc
    have h1 : J = (parts.take J.length).map .ok := by
      rw [List.map_take, ← hc, List.take_left']
      rfl
    have hlen : ∀ p ∈ parts.take J.length, p.length = c := fun p hp =>
      hJ (.ok p) (by rw [h1]; exact List.mem_map_of_mem hp) p rfl
    have hl : (parts.take J.length).flatten.length = J.length * c := by
      have : ∀ l : List (List UInt8), (∀ p ∈ l, p.length = c) → l.flatten.length = l.length * c := by
        intro l
        induction l with
        | nil => simp
        | cons p l ih =>
          intro hp
          rw [List.flatten_cons, List.length_append, ih fun q hq => hp q (List.mem_cons_of_mem _ hq),
            hp p List.mem_cons_self, List.length_cons, Nat.succ_mul, Nat.add_comm]
      rw [this _ hlen]
      congr 1
      have := congrArg List.length h1
      rw [List.length_map] at this
      exact this.symm
    refine ⟨parts.take J.length, h1, fun i hi ho => ?_⟩
    unfold assemble fit at ho ⊢
    rw [List.length_take, List.length_take] at ho
    rw [List.getElem?_take, if_pos (by omega), List.getElem?_take, if_pos (by omega)]
    conv_lhs => rw [← List.take_append_drop J.length parts, List.flatten_append, List.append_assoc]
    rw [List.getElem?_append_left (by rw [hl]; exact hi)]

/-- **C64**: two baseline files that differ only in bytes that are unread after the first `n` strips have the
same strips, if they are decoded at all: damage in a file, or its end, does not reach the rows before. -/
theorem c64_damage (d d' d'' : Decoder) (a x y out out' : List UInt8) (n len : Nat)
    (hs : StripsRead d (a ++ x) n len x) (hx : x ≠ [])
    (h : d.decodeBuffer (a ++ x) = (.ok out, d')) (h' : d.decodeBuffer (a ++ y) = (.ok out', d'')) :
    ∀ i, i < len → i < out.length → i < out'.length → out[i]? = out'[i]? := by
  obtain ⟨d1, d2, r, s, t, e1, e2, e3, e4, e5, e6, rfl⟩ := hs
  have hse : d1.specEnd ≤ 63 := headers_specEnd e1
  obtain ⟨p, hp, ep⟩ := decodeHeaders_loc e1
  obtain ⟨-, b, hb, eb⟩ := strips_cau s n _ _ _ e5 (Or.inl (by rw [show Reads.rd t = t.io.rd from rfl, e6]; exact hx))
  have hb : r = b ++ x := by rw [← e6]; exact hb
  have ha : a = p ++ b := by
    rw [hb, ← List.append_assoc] at hp
    exact List.append_cancel_right hp
  have hrel := M.wp_ok (wpT_baselineSetup (h := ⟨d1, r⟩)) e3
  have hse2 : d2.specEnd ≤ 63 := by
    have := hrel.2.1.rest
    dsimp only at this
    rw [this]
    exact hse
  obtain ⟨m, c0, hm⟩ := hrel.2.2.2
  have hchunk : s.chunk = chunkLen d2 := by rw [hm]; rfl
  obtain ⟨f1, f2, J, f3, f4, f5⟩ := strips_jobs hse2 (by show 0 ≤ 63; omega) e5
  have f3 : t.jobs = J := f3
  have key : ∀ z out d', d.decodeBuffer (a ++ z) = (.ok out, d') →
      ∃ P : List (List UInt8), J = P.map .ok ∧ ∀ i, i < J.length * s.chunk → i < out.length → out[i]? = P.flatten[i]? := by
    intro z out d' h
    have hr : ∃ rest, decodeBaseline ⟨d1, b ++ z⟩ = (.ok out, ⟨d', rest⟩) := by
      unfold Decoder.decodeBuffer decodeInternal at h
      rw [ha, List.append_assoc, M.bind_ok (ep (b ++ z))] at h
      have e : (getDec >>= fun d => if d.isProgressive then decodeProgressive else decodeBaseline) ⟨d1, b ++ z⟩ =
          decodeBaseline ⟨d1, b ++ z⟩ := by
        show (if d1.isProgressive then decodeProgressive else decodeBaseline) ⟨d1, b ++ z⟩ = _
        rw [if_neg (by rw [e2]; decide)]
      rw [e] at h
      rcases hd : decodeBaseline ⟨d1, b ++ z⟩ with ⟨r, ⟨d3, rest⟩⟩
      rw [hd] at h
      cases h
      exact ⟨rest, rfl⟩
    obtain ⟨rest, hr⟩ := hr
    obtain ⟨s', d3, t', g1, g2, g3, g4, g5⟩ := decodeBaseline_inv hr
    have hg := g1 r
    rw [e3] at hg
    injection hg with hg1 hg2
    injection hg1 with hg1
    injection hg2 with hg2 _
    subst hg1 hg2
    obtain ⟨k, hk⟩ : ∃ k, s.mcuHeight = n + k := ⟨s.mcuHeight - n, by omega⟩
    rw [hk, strips_split] at g2
    have e7 := eb z
    rw [show Reads.put (scanStart d2 r) (b ++ z) = scanStart d2 (b ++ z) from rfl] at e7
    rw [M.bind_ok e7] at g2
    obtain ⟨-, -, L, k1, -, -⟩ := strips_jobs (t := Reads.put t z) f1 f2 g2
    rw [k1, show (Reads.put t z).jobs = J from f3] at g5
    exact assemble_prefix f5 g5
  obtain ⟨P, p1, p2⟩ := key x out d' h
  obtain ⟨P', p3, p4⟩ := key y out' d'' h'
  have hP : P = P' := by
    rw [p1] at p3
    exact List.map_injective_iff.2 (fun _ _ h => Out.ok.inj h) p3
  subst hP
  intro i hi h1 h2
  have hi' : i < J.length * s.chunk := by
    rw [f4, hchunk]
    unfold chunkLen
    refine Nat.lt_of_lt_of_le hi (le_of_eq ?_)
    ring
  rw [p2 i hi' h1, p4 i hi' h2]

/-! ### A case -/

/-- Run the first `n` strips of a file: the bytes that are left, and the length of the output they make up. -/
def stripsRest (d : Decoder) (buf : List UInt8) (n : Nat) : Option (Nat × List UInt8) :=
  match decodeHeaders ⟨d, buf⟩ with
  | (.ok (), ⟨d1, r⟩) =>
    if d1.isProgressive then none else
    match baselineSetup ⟨d1, r⟩ with
    | (.ok s, ⟨d2, r2⟩) =>
      if s.mcuHeight < n then none else
      match strips s n (scanStart d2 r2) with
      | (.ok (), t) =>
        some (n * (8 * d2.hMax * d2.vMax) * (d2.info.width.toNat * d2.options.getOutColorspace.numComponents), t.io.rd)
      | _ => none
    | _ => none
  | _ => none

theorem stripsRead_of {d : Decoder} {buf rest : List UInt8} {n len : Nat}
    (h : stripsRest d buf n = some (len, rest)) : StripsRead d buf n len rest := by
  unfold stripsRest at h
  split at h
  · rename_i d1 r e1
    by_cases hp : d1.isProgressive = true
    · rw [if_pos hp] at h; cases h
    · rw [if_neg hp] at h
      split at h
      · rename_i s d2 r2 e2
        by_cases hn : s.mcuHeight < n
        · rw [if_pos hn] at h; cases h
        · rw [if_neg hn] at h
          split at h
          · rename_i t e3
            obtain ⟨rfl, -⟩ := baselineSetup_rd e2
            cases h
            exact ⟨d1, d2, r2, s, t, e1, by simpa using hp, e2, Nat.le_of_not_lt hn, e3, rfl, rfl⟩
          · cases h
      · cases h
  · cases h

/-- The header of a file of 8 x 16 samples, with the code words of `cutHeader`. -/
def twoStrips : List UInt8 :=
  [0xFF, 0xD8] ++
  [0xFF, 0xDB, 0x00, 0x43, 0x00] ++ List.replicate 64 1 ++
  [0xFF, 0xC0, 0x00, 0x0B, 8, 0, 16, 0, 8, 1, 1, 0x11, 0] ++
  ([0xFF, 0xC4, 0x00, 0x15, 0x00, 1, 1] ++ List.replicate 14 0 ++ [0, 6]) ++
  ([0xFF, 0xC4, 0x00, 0x17, 0x10, 1, 0, 3] ++ List.replicate 13 0 ++ [0, 8, 7, 6]) ++
  [0xFF, 0xDA, 0x00, 0x08, 1, 1, 0x00, 0, 63, 0]

/-- The scan of such a file: the first strip needs 9 bits, the second starts in the same byte. -/
def twoScan : List UInt8 := [0xBF, 0x35, 0x5A, 0xAD, 0x56, 0xAB, 0x55, 0xAA]

/-- A file, and the file with a wrong byte in the last 6: the first strip is the same, the second is not. -/
theorem twoStrips_read : StripsRead (Decoder.new ⟨false, false⟩)
    ((twoStrips ++ twoScan) ++ [0xD5, 0x6A, 0xB5, 0x5A, 0xFF, 0xD9]) 1 64 [0xD5, 0x6A, 0xB5, 0x5A, 0xFF, 0xD9] :=
  stripsRead_of (by decide +kernel)

/-- Equal in the first strip, different in the next. -/
def sameThenNot : Out (List UInt8) → Out (List UInt8) → Bool
  | .ok u, .ok v => u.length == 128 && v.length == 128 && u.take 64 == v.take 64 && u.take 65 != v.take 65
  | _, _ => false

example : sameThenNot
    ((Decoder.new ⟨false, false⟩).decodeBuffer ((twoStrips ++ twoScan) ++ [0xD5, 0x6A, 0xB5, 0x5A, 0xFF, 0xD9])).1
    ((Decoder.new ⟨false, false⟩).decodeBuffer ((twoStrips ++ twoScan) ++ [0xD4, 0x2A, 0xB5, 0x5A, 0xFF, 0xD9])).1 =
    true := by
  decide +kernel

end Zune
