import Verif.Lemmas.Trailing
import Verif.Lemmas.CausalProg
import Verif.Lemmas.Relax
import Verif.Props.Decode
/-! C63: what follows the end of the image does not matter. -/

namespace Zune

open Spec

/-! ### Whole decodes -/

theorem loc_liftDec {α} (m : M Decoder α) : Loc (liftDec m) := by
  intro d rd v d' rd' h
  unfold liftDec at *
  dsimp only at *
  rcases hm : m d with ⟨r, d1⟩
  rw [hm] at h
  cases h
  exact ⟨[], rfl, fun t => rfl⟩

theorem loc_finishProgressive (bufs : List (List I16)) (mw : Nat) : Loc (finishProgressive bufs mw) := by
  have h1 : Loc (finishSetup mw) := by
    unfold finishSetup
    loc
    exact loc_liftDec _
    loc
  unfold finishProgressive
  refine Loc.bind h1 fun _ => ?_
  split
  loc

/-- The action neither reads nor looks at the unread bytes. -/
def RdFree {α} (m : M H α) : Prop := ∀ d x y, m ⟨d, x⟩ = ((m ⟨d, y⟩).1, ⟨(m ⟨d, y⟩).2.dec, x⟩)

theorem RdFree.bind {α β} {m : M H α} {f : α → M H β} (hm : RdFree m) (hf : ∀ a, RdFree (f a)) :
    RdFree (m >>= f) := by
  intro d x y
  have h1 := hm d x y
  have h2 := hm d y y
  rcases hr : m ⟨d, y⟩ with ⟨r, ⟨d1, z⟩⟩
  rw [hr] at h1 h2
  have hz : z = y := by
    injection h2 with _ h2
    injection h2
  subst hz
  dsimp only at h1
  cases r with
  | ok a => rw [M.bind_ok h1, M.bind_ok hr]; exact hf a _ _ _
  | err _ => rw [M.bind_apply, M.bind_apply, h1, hr]
  | panic _ => rw [M.bind_apply, M.bind_apply, h1, hr]
  | diverge => rw [M.bind_apply, M.bind_apply, h1, hr]

theorem RdFree.ite {α} {c : Prop} [Decidable c] {m n : M H α} (hm : RdFree m) (hn : RdFree n) :
    RdFree (if c then m else n) := by
  by_cases h : c <;> simpa [h]

theorem RdFree.ofOut {α} (o : Out α) : RdFree (M.ofOut o) := fun _ _ _ => rfl
theorem RdFree.pure {α} (a : α) : RdFree (Pure.pure a) := fun _ _ _ => rfl
theorem RdFree.throw {α} (e : DecodeErr) : RdFree (M.throw e : M H α) := fun _ _ _ => rfl
theorem RdFree.panic {α} (p : Site) : RdFree (M.panic p : M H α) := fun _ _ _ => rfl
theorem RdFree.getDec : RdFree getDec := fun _ _ _ => rfl
theorem RdFree.modDec (f : Decoder → Decoder) : RdFree (modDec f) := fun _ _ _ => rfl
theorem RdFree.liftDec {α} (m : M Decoder α) : RdFree (liftDec m) := fun _ _ _ => rfl
theorem RdFree.idx {α} (l : List α) (i : Nat) : RdFree (M.idx l i : M H α) := fun d x y => by
  unfold M.idx
  cases l[i]? <;> rfl

/-- Proves `RdFree`. -/
macro "rdfree" : tactic => `(tactic| repeat' (first
  | with_reducible exact RdFree.ofOut _ | with_reducible exact RdFree.pure _ | with_reducible exact RdFree.throw _
  | with_reducible exact RdFree.panic _ | with_reducible exact RdFree.getDec | with_reducible exact RdFree.modDec _
  | with_reducible exact RdFree.liftDec _ | with_reducible exact RdFree.idx _ _
  | with_reducible refine RdFree.bind ?_ fun _ => ?_ | with_reducible apply RdFree.ite | dsimp only))

theorem rdFree_baselineSetup : RdFree baselineSetup := by
  have h1 : RdFree mcuCounts := by unfold mcuCounts; rdfree
  have h2 : ∀ m, RdFree (grayReset m) := fun m => by unfold grayReset; rdfree
  unfold baselineSetup
  rdfree
  · exact h1
  · exact h2 _

/-- The setup of a baseline scan reads nothing, and does not depend on what is unread. -/
theorem baselineSetup_rd {d d' : Decoder} {rd rd' : List UInt8} {s : Scan}
    (h : baselineSetup ⟨d, rd⟩ = (.ok s, ⟨d', rd'⟩)) :
    rd' = rd ∧ ∀ t, baselineSetup ⟨d, t⟩ = (.ok s, ⟨d', t⟩) := by
  refine ⟨?_, fun t => by rw [rdFree_baselineSetup d t rd, h]⟩
  have := rdFree_baselineSetup d rd rd
  rw [h] at this
  injection this with _ h2
  injection h2

/-- The decoder at the start of a baseline scan. -/
def scanStart (d : Decoder) (rd : List UInt8) : T := { dec := d, io := { bs := BitStream.new, rd := rd } }

theorem decodeBaseline_inv {d d' : Decoder} {rd rest out : List UInt8}
    (h : decodeBaseline ⟨d, rd⟩ = (.ok out, ⟨d', rest⟩)) : ∃ s d1 t,
      (∀ r, baselineSetup ⟨d, r⟩ = (.ok s, ⟨d1, r⟩)) ∧
      strips s s.mcuHeight (scanStart d1 rd) = (.ok (), t) ∧ t.dec = d' ∧ t.io.rd = rest ∧
      (joinPool (.ok ()) t.jobs).map (assemble s.outLen (keepLen t.dec)) = .ok out := by
  unfold decodeBaseline at h
  rcases hb : baselineSetup ⟨d, rd⟩ with ⟨_ | _ | _ | _, ⟨d1, r1⟩⟩ <;> rw [hb] at h <;> try cases h
  rename_i s
  obtain ⟨rfl, e⟩ := baselineSetup_rd hb
  dsimp only at h
  rcases hs : strips s s.mcuHeight { dec := d1, io := { bs := BitStream.new, rd := r1 } } with ⟨x, t⟩
  rw [hs] at h
  simp only [Prod.mk.injEq] at h
  obtain ⟨h, h2⟩ := h
  have hx : x = .ok () := by
    cases hj : joinPool x t.jobs with
    | ok p => exact joinPool_ok hj
    | _ => rw [hj] at h; cases h
  subst hx
  injection h2 with h2 h3
  exact ⟨s, d1, t, e, hs, h2, h3, h⟩

theorem decodeBaseline_of {d d1 : Decoder} {rd : List UInt8} {s : Scan} {t : T}
    (h1 : ∀ r, baselineSetup ⟨d, r⟩ = (.ok s, ⟨d1, r⟩))
    (h2 : strips s s.mcuHeight (scanStart d1 rd) = (.ok (), t)) :
    decodeBaseline ⟨d, rd⟩ = ((joinPool (.ok ()) t.jobs).map (assemble s.outLen (keepLen t.dec)),
      ⟨t.dec, t.io.rd⟩) := by
  unfold decodeBaseline
  rw [h1]
  dsimp only
  unfold scanStart at h2
  rw [h2]

theorem decodeProgressive_loc : Loc decodeProgressive := by
  have h1 : ∀ bufs, Loc (runScans bufs) := by
    intro bufs d rd v d' rd' h
    unfold runScans at h
    dsimp only at h
    rcases hs : progScans bufs { dec := d, io := progIo ⟨d, rd⟩ } with ⟨r, t⟩
    rw [hs] at h
    simp only [Prod.mk.injEq] at h
    obtain ⟨rfl, h2⟩ := h
    injection h2 with h2 h3
    obtain ⟨a, ha, e⟩ := progScans_cau hs
    refine ⟨a, by rw [← h3]; exact ha, fun x => ?_⟩
    have e := e x
    unfold runScans
    dsimp only
    rw [show ({ dec := d, io := progIo ⟨d, a ++ x⟩ } : T) =
      Reads.put { dec := d, io := progIo ⟨d, rd⟩ } (a ++ x) from rfl, e]
    rw [← h2]
    rfl
  unfold decodeProgressive
  loc
  · exact h1 _
  · exact loc_finishProgressive _ _

/-! ### C63 -/

/-- **C63**, bytes that the decoder has not read: if a file is decoded and bytes are left unread, then
anything may take their place. -/
theorem c63_unread_partial (d d' : Decoder) (buf rest out : List UInt8)
    (h : decodeInternal ⟨d, buf⟩ = (.ok out, ⟨d', rest⟩)) (hr : rest ≠ []) :
    ∃ a, buf = a ++ rest ∧ ∀ t, d.decodeBuffer (a ++ t) = (.ok out, d') := by
  suffices ∃ a, buf = a ++ rest ∧ ∀ t, decodeInternal ⟨d, a ++ t⟩ = (.ok out, ⟨d', t⟩) by
    obtain ⟨a, ha, e⟩ := this
    exact ⟨a, ha, fun t => by unfold Decoder.decodeBuffer; rw [e]⟩
  unfold decodeInternal at h ⊢
  obtain ⟨_, ⟨d1, r1⟩, h1, h2⟩ := M.bind_ok_inv h
  obtain ⟨a, ha, ea⟩ := decodeHeaders_loc h1
  have h3 : (if d1.isProgressive then decodeProgressive else decodeBaseline) ⟨d1, r1⟩ = (.ok out, ⟨d', rest⟩) := h2
  have key : ∃ b, r1 = b ++ rest ∧ ∀ t, (if d1.isProgressive then decodeProgressive else decodeBaseline)
      ⟨d1, b ++ t⟩ = (.ok out, ⟨d', t⟩) := by
    by_cases hp : d1.isProgressive = true
    · simp only [if_pos hp] at h3 ⊢
      exact decodeProgressive_loc _ _ _ _ _ h3
    · simp only [if_neg hp] at h3 ⊢
      obtain ⟨s, d2, t, e1, e2, e3, e4, e5⟩ := decodeBaseline_inv h3
      obtain ⟨-, b, hb, eb⟩ := strips_cau s _ _ _ _ e2 (Or.inl (by rw [show Reads.rd t = t.io.rd from rfl, e4]; exact hr))
      refine ⟨b, by rw [← e4]; exact hb, fun x => ?_⟩
      rw [decodeBaseline_of e1 (eb x), ← e3]
      exact Prod.ext e5 rfl
  obtain ⟨b, hb, eb⟩ := key
  refine ⟨a ++ b, by rw [ha, hb, List.append_assoc], fun t => ?_⟩
  rw [List.append_assoc, M.bind_ok (ea _)]
  exact eb t

/-- **C63** for progressive files: every file that is decoded may be followed by anything. -/
theorem c63_progressive_partial (d d1 d' : Decoder) (buf out : List UInt8)
    (hh : d.readHeaders buf = (.ok (), d1)) (hp : d1.isProgressive = true)
    (h : d.decodeBuffer buf = (.ok out, d')) (t : List UInt8) : d.decodeBuffer (buf ++ t) = (.ok out, d') := by
  unfold Decoder.decodeBuffer at h
  rcases hr : decodeInternal ⟨d, buf⟩ with ⟨r, ⟨d2, rest⟩⟩
  rw [hr] at h
  cases h
  suffices decodeInternal ⟨d, buf ++ t⟩ = (.ok out, ⟨d2, rest ++ t⟩) by
    unfold Decoder.decodeBuffer; rw [this]
  unfold decodeInternal at hr ⊢
  obtain ⟨_, ⟨d3, r1⟩, h1, h2⟩ := M.bind_ok_inv hr
  have : d3 = d1 := by
    unfold Decoder.readHeaders at hh
    rw [h1] at hh
    cases hh
    rfl
  subst this
  obtain ⟨a, ha, ea⟩ := decodeHeaders_loc h1
  have h3 : (if d3.isProgressive then decodeProgressive else decodeBaseline) ⟨d3, r1⟩ = (.ok out, ⟨d2, rest⟩) := h2
  rw [if_pos hp] at h3
  obtain ⟨b, hb, eb⟩ := decodeProgressive_loc _ _ _ _ _ h3
  rw [ha, hb, List.append_assoc, List.append_assoc, M.bind_ok (ea _)]
  show (if d3.isProgressive then decodeProgressive else decodeBaseline) ⟨d3, b ++ (rest ++ t)⟩ = _
  rw [if_pos hp]
  exact eb _

/-- **C63** for baseline files whose scan runs to an end-of-image marker without other segments: whatever the
result is, also an error, it is the same if anything follows the marker. -/
theorem c63_baseline_partial (d d1 : Decoder) (buf data : List UInt8)
    (hh : decodeHeaders ⟨d, buf⟩ = (.ok (), ⟨d1, data⟩)) (hp : d1.isProgressive = false)
    (hd : EndedData data) (t : List UInt8) : d.decodeBuffer (buf ++ t) = d.decodeBuffer buf := by
  obtain ⟨a, ha, ea⟩ := decodeHeaders_loc hh
  have key : ∀ x, d.decodeBuffer (a ++ x) = ((decodeBaseline ⟨d1, x⟩).1, (decodeBaseline ⟨d1, x⟩).2.dec) := by
    intro x
    unfold Decoder.decodeBuffer decodeInternal
    rw [M.bind_ok (ea x)]
    have e : (getDec >>= fun d => if d.isProgressive then decodeProgressive else decodeBaseline) ⟨d1, x⟩ =
        decodeBaseline ⟨d1, x⟩ := by
      show (if d1.isProgressive then decodeProgressive else decodeBaseline) ⟨d1, x⟩ = _
      rw [if_neg (by rw [hp]; decide)]
    rw [e]
  rw [ha, List.append_assoc, key, key]
  have hs : ∀ x, baselineSetup ⟨d1, x⟩ = ((baselineSetup ⟨d1, data⟩).1, ⟨(baselineSetup ⟨d1, data⟩).2.dec, x⟩) :=
    fun x => rdFree_baselineSetup d1 x data
  unfold decodeBaseline
  rw [hs (data ++ t)]
  rcases hb : baselineSetup ⟨d1, data⟩ with ⟨r, ⟨d2, r2⟩⟩
  have hr2 : r2 = data := by
    have := hs data
    rw [hb] at this
    injection this with _ h2
    injection h2
  subst hr2
  cases r with
  | ok s =>
    dsimp only
    have hin : Inside (scanStart d2 r2) := Or.inr ⟨hd, Or.inl rfl⟩
    obtain ⟨-, e⟩ := strips_sim s s.mcuHeight _ hin
    have e := e t
    rw [show ext (scanStart d2 r2) t = scanStart d2 (r2 ++ t) from rfl] at e
    unfold scanStart at e
    rw [e]
    rfl
  | err _ => rfl
  | panic _ => rfl
  | diverge => rfl

/-- The header of a file of 8 x 8 samples, with the code words `0` and `10` for differences of the DC
coefficients of 0 and 6 bits. -/
def cutHeader : List UInt8 :=
  [0xFF, 0xD8] ++
  [0xFF, 0xDB, 0x00, 0x43, 0x00] ++ List.replicate 64 1 ++
  [0xFF, 0xC0, 0x00, 0x0B, 8, 0, 8, 0, 8, 1, 1, 0x11, 0] ++
  ([0xFF, 0xC4, 0x00, 0x15, 0x00, 1, 1] ++ List.replicate 14 0 ++ [0, 6]) ++
  ([0xFF, 0xC4, 0x00, 0x14, 0x10, 1] ++ List.replicate 15 0 ++ [0]) ++
  [0xFF, 0xDA, 0x00, 0x08, 1, 1, 0x00, 0, 63, 0]

/-- **C63 is false** of baseline files that are cut off: the decoder reads zeros after the end, and accepts
the file; what is appended to it is decoded as part of the image. -/
theorem c63_false : ∃ v w, v ≠ w ∧ ((Decoder.new ⟨false, false⟩).decodeBuffer cutHeader).1 = .ok v ∧
    ((Decoder.new ⟨false, false⟩).decodeBuffer (cutHeader ++ [0xBF, 0x00])).1 = .ok w :=
  ⟨List.replicate 64 128, List.replicate 64 135, by decide, by decide +kernel, by decide +kernel⟩

theorem endedData_small : EndedData [0x3F, 0xFF, 0xD9] := .byte (by decide) .eoi
theorem endedData_all : EndedData [0x12, 0xFF, 0x00, 0x34, 0xFF, 0xFF, 0xD3, 0xFF, 0xFF, 0xD9] :=
  .byte (by decide) (.stuffed (.byte (by decide) (.fill (.restart (by decide) (by decide) (.fill .eoi)))))

/-- The tiny file meets the hypotheses of `c63_baseline_partial`. -/
example (t : List UInt8) : ((Decoder.new ⟨false, false⟩).decodeBuffer (tinyFile ++ t)).1 =
    .ok (List.replicate 64 128) := by
  have h : ((decodeHeaders ⟨Decoder.new ⟨false, false⟩, tinyFile⟩).1,
    (decodeHeaders ⟨Decoder.new ⟨false, false⟩, tinyFile⟩).2.rd,
    (decodeHeaders ⟨Decoder.new ⟨false, false⟩, tinyFile⟩).2.dec.isProgressive) =
      (.ok (), [0x3F, 0xFF, 0xD9], false) := by decide +kernel
  rcases hm : decodeHeaders ⟨Decoder.new ⟨false, false⟩, tinyFile⟩ with ⟨r, ⟨d, rd⟩⟩
  rw [hm] at h
  simp only [Prod.mk.injEq] at h
  obtain ⟨rfl, rfl, hp⟩ := h
  rw [c63_baseline_partial _ _ _ _ hm hp endedData_small, tinyFile_ok]

/-- The tiny progressive file meets those of `c63_progressive_partial`. -/
example (t : List UInt8) : ((Decoder.newWithOptions ⟨false, false⟩ (Options.new.setMaxScans 2)).decodeBuffer
    (tinyProgFile ++ t)).1 = .ok (List.replicate 64 128) := by
  have h3 : ((Decoder.newWithOptions ⟨false, false⟩ (Options.new.setMaxScans 2)).readHeaders tinyProgFile).1 =
    .ok () := by decide +kernel
  obtain ⟨h1, -, h2⟩ := tinyProgFile_limit
  generalize Decoder.newWithOptions ⟨false, false⟩ (Options.new.setMaxScans 2) = d at *
  generalize tinyProgFile = f at *
  rcases hd : d.decodeBuffer f with ⟨r, d'⟩
  rw [hd] at h1
  cases h1
  rw [c63_progressive_partial d _ _ f _ (Prod.ext h3 rfl) h2 hd t]

/-- A file with unread bytes, which `c63_unread_partial` speaks of. -/
example : ((decodeInternal ⟨Decoder.new ⟨false, false⟩, cutHeader ++ [0, 0, 0, 0, 0, 0, 0, 0, 1, 2, 3]⟩).1,
    (decodeInternal ⟨Decoder.new ⟨false, false⟩, cutHeader ++ [0, 0, 0, 0, 0, 0, 0, 0, 1, 2, 3]⟩).2.rd) =
    (.ok (List.replicate 64 128), [1, 2, 3]) := by decide +kernel

end Zune
