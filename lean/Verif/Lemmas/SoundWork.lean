import Verif.Lemmas.Slice
import Verif.Model.Worker
import Verif.Props.Color
/-! The post processing of a strip does not leave a slice. -/

namespace Zune
variable {α β : Type}

/-- The outcome is not an access outside of a slice. -/
abbrev Out.Sound (o : Out α) : Prop := o ≠ .panic .unsound

theorem Out.sound_ok (a : α) : (Out.ok a).Sound := fun h => by cases h
theorem Out.sound_panic {s : Site} (h : s ≠ .unsound) : (Out.panic s : Out α).Sound :=
  fun e => h (Out.panic.inj e)

theorem Out.Sound.bind {o : Out α} {f : α → Out β} (h : o.Sound)
    (hf : ∀ a, o = .ok a → (f a).Sound) : (o.bind f).Sound := by
  cases o with
  | ok a => exact hf a rfl
  | err e => exact fun h => by cases h
  | panic e => exact fun e' => h (by rw [Out.panic.inj e'])
  | diverge => exact fun h => by cases h

theorem Out.sound_ite {c : Prop} [Decidable c] {x y : Out α} (hx : c → x.Sound)
    (hy : ¬ c → y.Sound) : (if c then x else y).Sound := by
  by_cases h : c
  · rw [if_pos h]; exact hx h
  · rw [if_neg h]; exact hy h

/-- A loop whose body is sound under an invariant that depends on the round. -/
theorem Out.sound_fold {f : β → α → Out β} {P : Nat → β → Prop} :
    ∀ {l : List α} {b : β} {k : Nat}, P k b →
    (∀ i b a, l[i]? = some a → P (k + i) b →
      (f b a).Sound ∧ ∀ b', f b a = .ok b' → P (k + i + 1) b') →
    (Out.fold f b l).Sound ∧ ∀ b', Out.fold f b l = .ok b' → P (k + l.length) b'
  | [], b, k, h, _ => ⟨Out.sound_ok _, fun b' e => by cases e; exact h⟩
  | a :: l, b, k, h, step => by
    obtain ⟨h1, h2⟩ := step 0 b a rfl h
    have ih : ∀ b1, f b a = .ok b1 → _ := fun b1 e1 =>
      Out.sound_fold (f := f) (P := P) (l := l) (b := b1) (k := k + 1) (h2 b1 e1)
      (fun i b a' ha hp => by
        have := step (i + 1) b a' (by simpa using ha) (by rwa [show k + (i + 1) = k + 1 + i by omega])
        rwa [show k + (i + 1) + 1 = k + 1 + i + 1 by omega] at this)
    show ((f b a).bind _).Sound ∧ ∀ b', (f b a).bind _ = .ok b' → _
    refine ⟨h1.bind fun b1 e1 => (ih b1 e1).1, fun b' e => ?_⟩
    obtain ⟨b1, e1, e2⟩ := Out.bind_ok e
    rw [List.length_cons, show k + (l.length + 1) = k + 1 + l.length by omega]
    exact (ih b1 e1).2 b' e2

/-- A loop whose body is always sound. -/
theorem Out.sound_fold' {f : β → α → Out β} {l : List α} {b : β}
    (h : ∀ b a, a ∈ l → (f b a).Sound) : (Out.fold f b l).Sound :=
  (Out.sound_fold (P := fun _ _ => True) (k := 0) trivial
    fun _ b a ha _ => ⟨h b a (List.mem_of_getElem? ha), fun _ _ => trivial⟩).1

theorem Out.sound_collect : ∀ {l : List (Out α)}, (∀ o ∈ l, o.Sound) → (Out.collect l).Sound
  | [], _ => Out.sound_ok _
  | o :: l, h => by
    refine (h o List.mem_cons_self).bind fun a _ => ?_
    exact (Out.sound_collect fun o ho => h o (List.mem_cons_of_mem _ ho)).bind fun _ _ =>
      Out.sound_ok _

theorem sound_writeChecked (l xs : List α) (pos : Nat) : (writeChecked l pos xs).Sound :=
  Out.sound_ite (fun _ => Out.sound_ok _) fun _ => Out.sound_panic (by decide)

/-! ### Upsampling -/

theorem sound_horizontal (input : List I16) (n : Nat) : (upsampleHorizontal input n).Sound := by
  unfold upsampleHorizontal
  split
  · exact Out.sound_ite (fun _ => Out.sound_panic (by decide)) fun _ => Out.sound_ok _
  · exact Out.sound_panic (by decide)

theorem sound_vertical (input : List I16) (n : Nat) : (upsampleVertical input n).Sound := by
  unfold upsampleVertical
  refine Out.sound_ite (fun _ => Out.sound_panic (by decide)) fun _ => Out.sound_fold' fun b k _ => ?_
  exact Out.sound_ite (fun _ => Out.sound_panic (by decide)) fun _ => Out.sound_ok _

theorem sound_hv (input : List I16) (n : Nat) : (upsampleHv input n).Sound :=
  (sound_vertical _ _).bind fun _ _ => sound_horizontal _ _

theorem loadUnchecked_ok {l : List I16} {pos n : Nat} (h : pos + n ≤ l.length) :
    loadUnchecked l pos n = .ok ((l.drop pos).take n) := if_pos h

theorem sound_hvInner {input : List I16} {len : Nat} {s : HvState} (k : Nat)
    (h : s.pos + s.stride + 16 ≤ input.length) :
    (hvInner input len s k).Sound ∧ ∀ s', hvInner input len s k = .ok s' →
      s'.pos = s.pos + 16 ∧ s'.stride = s.stride := by
  unfold hvInner
  rw [if_neg (by omega), loadUnchecked_ok (by omega), loadUnchecked_ok (by omega)]
  refine ⟨?_, fun s' e => ?_⟩
  · refine Out.Sound.bind (Out.sound_ok _) fun near _ => Out.Sound.bind (Out.sound_ok _) fun fr _ => ?_
    refine (sound_writeChecked _ _ _).bind fun o _ => (sound_writeChecked _ _ _).bind fun o _ => ?_
    exact Out.sound_ite (fun _ => Out.sound_panic (by decide)) fun _ => Out.sound_ok _
  · obtain ⟨near, -, e⟩ := Out.bind_ok e
    obtain ⟨fr, -, e⟩ := Out.bind_ok e
    obtain ⟨o, -, e⟩ := Out.bind_ok e
    obtain ⟨o', -, e⟩ := Out.bind_ok e
    dsimp only at e
    split at e
    · cases e
    · cases e
      exact ⟨rfl, rfl⟩

theorem sound_hvOuter {input : List I16} {len fin v j : Nat} {s : HvState}
    (h : s.pos + s.stride + 16 * fin ≤ input.length) :
    (hvOuter input len fin v s j).Sound ∧ ∀ s', hvOuter input len fin v s j = .ok s' →
      v ≠ 0 ∧ v / 2 + 2 ≤ s.pos + 16 * fin ∧ s'.pos = s.pos + 16 * fin + v / 2 ∧
      s'.stride = if j = 6 then 0 else if j = 0 then input.length / 8 else s.stride := by
  unfold hvOuter
  have hf := Out.sound_fold (f := hvInner input len) (l := List.range fin) (b := s) (k := 0)
    (P := fun k t => t.pos = s.pos + 16 * k ∧ t.stride = s.stride) ⟨rfl, rfl⟩
    (fun i t k hk ht => by
      have hi : i < fin := by
        have := (List.getElem?_eq_some_iff.1 hk).1
        rwa [List.length_range] at this
      obtain ⟨e1, e2⟩ := ht
      obtain ⟨h1, h2⟩ := sound_hvInner (input := input) (len := len) (s := t) k (by omega)
      refine ⟨h1, fun t' e => ?_⟩
      obtain ⟨h3, h4⟩ := h2 t' e
      exact ⟨by omega, by omega⟩)
  rw [List.length_range, Nat.zero_add] at hf
  refine ⟨hf.1.bind fun t ht => ?_, fun s' e => ?_⟩
  · refine Out.sound_ite (fun _ => Out.sound_panic (by decide)) fun _ => ?_
    exact Out.sound_ite (fun _ => Out.sound_panic (by decide)) fun _ => Out.sound_ok _
  · obtain ⟨t, ht, e⟩ := Out.bind_ok e
    obtain ⟨e1, e2⟩ := hf.2 t ht
    dsimp only at e
    split at e
    · cases e
    · split at e
      · cases e
      · rename_i h1 h2
        cases e
        dsimp only
        rw [e1, e2]
        exact ⟨by omega, by omega, rfl, rfl⟩

/-- The AVX2 code stays inside its input if the output is four times as long, and also if it is at
most twice or at least eight times as long, because it panics then in the first row. -/
theorem sound_hvAvx {input : List I16} {n : Nat} (hl : 500 ≤ input.length)
    (hn : n ≤ 2 * input.length ∨ n = 4 * input.length ∨ 8 * input.length ≤ n) :
    (upsampleHvAvx input n).Sound := by
  unfold upsampleHvAvx
  refine Out.sound_ite (fun _ => Out.sound_panic (by decide)) fun _ => ?_
  dsimp only
  refine (Out.sound_fold (k := 0) (P := fun k (t : HvState) => (k = 0 → t.pos = 0 ∧ t.stride = 0) ∧
    (0 < k → n = 4 * input.length ∧ t.pos = k * (input.length / 8) ∧
      t.stride = if k = 7 then 0 else if k = 8 then t.stride else input.length / 8))
    ⟨fun _ => ⟨rfl, rfl⟩, fun h => absurd h (by omega)⟩ ?_).1.bind fun _ _ => Out.sound_ok _
  intro i t j hj ht
  rw [Nat.zero_add] at *
  obtain ⟨hi, hj⟩ := List.getElem?_eq_some_iff.1 hj
  rw [List.length_range] at hi
  rw [List.getElem_range] at hj
  subst hj
  obtain ⟨h0, h1⟩ := ht
  generalize hfin : input.length / 128 - 1 = fin
  generalize hv : n / 16 - fin * 32 = v
  have hb : t.pos + t.stride + 16 * fin ≤ input.length := by
    by_cases hz : i = 0
    · obtain ⟨e1, e2⟩ := h0 hz
      rw [e1, e2]
      omega
    · obtain ⟨-, e1, e2⟩ := h1 (by omega)
      have hm : i * (input.length / 8) ≤ 7 * (input.length / 8) := Nat.mul_le_mul_right _ (by omega)
      by_cases h7 : i = 7
      · rw [if_pos h7] at e2
        omega
      · rw [if_neg h7, if_neg (by omega)] at e2
        have hm : i * (input.length / 8) ≤ 6 * (input.length / 8) :=
          Nat.mul_le_mul_right _ (by omega)
        omega
  obtain ⟨a1, a2⟩ := sound_hvOuter (input := input) (len := n / 16) (fin := fin) (v := v) (j := i)
    (s := t) hb
  refine ⟨a1, fun t' e => ⟨fun h => absurd h (by omega), fun _ => ?_⟩⟩
  obtain ⟨b1, b2, b3, b4⟩ := a2 t' e
  have h4 : n = 4 * input.length := by
    by_cases hz : i = 0
    · obtain ⟨e1, e2⟩ := h0 hz
      omega
    · exact (h1 (by omega)).1
  refine ⟨h4, ?_, ?_⟩
  · rw [b3, Nat.add_one_mul i]
    have : t.pos = i * (input.length / 8) := by
      by_cases hz : i = 0
      · rw [(h0 hz).1, hz, Nat.zero_mul]
      · exact (h1 (by omega)).2.1
    omega
  · rw [b4]
    by_cases h6 : i = 6
    · rw [if_pos h6, if_pos (by omega)]
    · rw [if_neg h6]
      by_cases hz : i = 0
      · rw [if_pos hz, if_neg (by omega), if_neg (by omega)]
      · rw [if_neg hz, if_neg (by omega)]
        by_cases h7 : i = 7
        · rw [if_pos (by omega)]
        · rw [if_neg (by omega), (h1 (by omega)).2.2, if_neg h7, if_neg (by omega)]

theorem sound_hvSimd {input : List I16} {n : Nat}
    (hn : n ≤ 2 * input.length ∨ n = 4 * input.length ∨ 8 * input.length ≤ n) :
    (upsampleHvSimd input n).Sound :=
  Out.sound_ite (fun _ => sound_hv _ _) fun _ => sound_hvAvx (by omega) hn

/-- The SSE code stays inside its input for every length. -/
theorem sound_horizontalSse (input : List I16) (n : Nat) : (upsampleHorizontalSse input n).Sound := by
  unfold upsampleHorizontalSse
  refine Out.sound_ite (fun _ => Out.sound_panic (by decide)) fun h => ?_
  dsimp only
  refine Out.Sound.bind (Out.sound_fold' fun b k hk => ?_) fun _ _ => Out.sound_ok _
  rw [List.mem_range] at hk
  unfold sseStep
  dsimp only
  rw [loadUnchecked_ok (by omega), loadUnchecked_ok (by omega), loadUnchecked_ok (by omega)]
  exact Out.Sound.bind (Out.sound_ok _) fun _ _ => Out.Sound.bind (Out.sound_ok _) fun _ _ =>
    Out.Sound.bind (Out.sound_ok _) fun _ _ => sound_writeChecked _ _ _

/-! ### Colour conversion -/

theorem sound_run (f : ColorFn) {y cb cr : List I16} (hy : y.length = 16) (hb : cb.length = 16)
    (hr : cr.length = 16) (out : List UInt8) (pos : Nat) : (f.run y cb cr out pos).Sound := by
  unfold ColorFn.run
  refine Out.sound_ite (fun h => ?_) fun _ => Out.sound_panic (by decide)
  have hl := length_bytes f hy hb hr
  dsimp only
  rw [if_pos]
  · exact Out.sound_ok _
  · rw [hl]
    revert h
    cases f <;> simp only [ColorFn.need] <;> intro h <;> omega

/-- All three lists of a group have sixteen values. -/
def Group (g : List I16 × List I16 × List I16) : Prop :=
  g.1.length = 16 ∧ g.2.1.length = 16 ∧ g.2.2.length = 16

theorem sound_groups (f : ColorFn) : ∀ {gs : List (List I16 × List I16 × List I16)}
    {out : List UInt8} {pos : Nat}, (∀ g ∈ gs, Group g) → (convertGroups f gs out pos).Sound
  | [], _, _, _ => Out.sound_ok _
  | (y, cb, cr) :: gs, out, pos, h => by
    obtain ⟨h1, h2, h3⟩ := h (y, cb, cr) List.mem_cons_self
    exact (sound_run f h1 h2 h3 out pos).bind fun _ _ =>
      sound_groups f fun g hg => h g (List.mem_cons_of_mem _ hg)

theorem sound_lastGroup (l : List I16) : (lastGroup l).Sound ∧
    ∀ g, lastGroup l = .ok g → g.length = 16 := by
  unfold lastGroup
  by_cases h : l.length < 16
  · rw [if_pos h]
    exact ⟨Out.sound_panic (by decide), fun g e => by cases e⟩
  · rw [if_neg h]
    refine ⟨Out.sound_ok _, fun g e => ?_⟩
    cases e
    rw [List.length_drop]
    omega

theorem sound_convertRow (f : ColorFn) (nc width : Nat) (y cb cr : List I16) (out : List UInt8) :
    (convertRow f nc width y cb cr out).Sound := by
  unfold convertRow
  dsimp only
  refine Out.sound_ite (fun _ => Out.sound_ite (fun _ => Out.sound_panic (by decide)) fun h => ?_)
    fun _ => ?_
  · refine (sound_run f ?_ ?_ ?_ _ _).bind fun _ _ => Out.sound_ok _
    all_goals
      rw [List.length_append, List.length_replicate]
      omega
  · refine (sound_groups f ?_).bind fun _ _ => ?_
    · intro g hg
      have hg := List.mem_of_mem_take hg
      obtain ⟨h1, h2⟩ := List.of_mem_zip (a := g.1) (b := g.2) hg
      obtain ⟨h3, h4⟩ := List.of_mem_zip (a := g.2.1) (b := g.2.2) h2
      exact ⟨chunk_length h1, chunk_length h3, chunk_length h4⟩
    · refine (sound_lastGroup _).1.bind fun ly hy => (sound_lastGroup _).1.bind fun lb hb =>
        (sound_lastGroup _).1.bind fun lr hr => ?_
      exact (sound_run f ((sound_lastGroup _).2 _ hy) ((sound_lastGroup _).2 _ hb)
        ((sound_lastGroup _).2 _ hr) _ _).bind fun _ _ => Out.sound_ok _

theorem sound_colorConvert (f : ColorFn) (nc : Nat) (y cb cr : List I16) (width h v : Nat)
    (out : List UInt8) : (colorConvertYcbcr f nc y cb cr width h v out).Sound := by
  unfold colorConvertYcbcr
  dsimp only
  refine Out.sound_ite (fun _ => Out.sound_panic (by decide)) fun _ =>
    Out.sound_ite (fun _ => Out.sound_panic (by decide)) fun _ => Out.sound_fold' fun b a _ => ?_
  refine Out.sound_ite (fun _ => Out.sound_panic (by decide)) fun _ => ?_
  exact (sound_convertRow _ _ _ _ _ _ _).bind fun _ _ => Out.sound_ok _

theorem sound_grayscale (y : List I16) (width : Nat) (out : List UInt8) :
    (ycbcrToGrayscale y width out).Sound := by
  unfold ycbcrToGrayscale
  dsimp only
  refine Out.sound_ite (fun _ => Out.sound_panic (by decide)) fun _ =>
    Out.sound_ite (fun _ => Out.sound_panic (by decide)) fun _ =>
    Out.sound_ite (fun _ => Out.sound_panic (by decide)) fun _ => Out.sound_fold' fun b a _ => ?_
  exact Out.sound_ite (fun _ => Out.sound_panic (by decide)) fun _ =>
    Out.sound_ite (fun _ => Out.sound_panic (by decide)) fun _ => Out.sound_ok _

theorem sound_ycbcr (y cb cr : List I16) (width h v : Nat) (out : List UInt8) :
    (ycbcrToYcbcr y cb cr width h v out).Sound := by
  unfold ycbcrToYcbcr
  dsimp only
  refine Out.sound_ite (fun _ => Out.sound_panic (by decide)) fun _ =>
    Out.sound_ite (fun _ => Out.sound_panic (by decide)) fun _ => Out.sound_fold' fun b a _ => ?_
  exact Out.sound_ite (fun _ => Out.sound_panic (by decide)) fun _ =>
    Out.sound_ite (fun _ => Out.sound_panic (by decide)) fun _ => Out.sound_ok _

/-! ### A strip -/

theorem sound_writeRows : ∀ (rs : List (List I16)) (out : List I16) (pos stride : Nat),
    (writeRows out pos stride rs).Sound
  | [], _, _, _ => Out.sound_ok _
  | _ :: rs, _, _, _ =>
    (sound_writeChecked _ _ _).bind fun _ _ => sound_writeRows rs _ _ _

theorem sound_idctStrip (f : List I16 → List Nat → List (List I16)) (vec : List I16) (qt : List Nat)
    (stride samp v : Nat) : (idctStrip f vec qt stride samp v).Sound ∧
      ∀ r, idctStrip f vec qt stride samp v = .ok r → r.length = vec.length := by
  unfold idctStrip
  dsimp only
  refine ⟨?_, fun r e => ?_⟩
  · refine Out.sound_ite (fun _ => Out.sound_panic (by decide)) fun _ =>
      Out.sound_ite (fun _ => Out.sound_panic (by decide)) fun _ => ?_
    refine (Out.sound_collect fun o ho => ?_).bind fun _ _ => Out.sound_ok _
    obtain ⟨c, -, rfl⟩ := List.mem_map.1 ho
    exact Out.sound_fold' fun _ _ _ => sound_writeRows _ _ _ _
  · split at e
    · cases e
    · split at e
      · cases e
      · obtain ⟨outs, -, e⟩ := Out.bind_ok e
        cases e
        exact length_fit _ _ _

/-- Upsampling by the AVX2 code for 2x2 subsampling meets output lengths that it can handle. -/
def UpOk (comps : List Component) (x : Nat) (lens : Nat → Nat) : Prop :=
  ∀ i c, 0 < i → i < x → comps[i]? = some c → c.upSampler = .hvAvx →
    lens 0 ≤ 2 * lens i ∨ lens 0 = 4 * lens i ∨ 8 * lens i ≤ lens 0

theorem sound_upsampler (u : UpSampler) {input : List I16} {n : Nat} (h : u = .hvAvx →
    n ≤ 2 * input.length ∨ n = 4 * input.length ∨ 8 * input.length ≤ n) :
    (u.run input n).Sound := by
  cases u
  · exact Out.sound_ok _
  · exact sound_horizontal _ _
  · exact sound_horizontalSse _ _
  · exact sound_vertical _ _
  · exact sound_hv _ _
  · exact sound_hvSimd (h rfl)

theorem sound_postProcessInner (f : ColorFn) (comps : List Component) (inCs outCs : ColorSpace)
    (width : Nat) (planes : List (List I16)) (out : List UInt8)
    (h : UpOk comps (min inCs.numComponents outCs.numComponents) fun i => (planes.getD i []).length) :
    (postProcessInner f comps inCs outCs width planes out).Sound := by
  unfold postProcessInner
  dsimp only
  cases comps[0]? with
  | none => exact Out.sound_panic (by decide)
  | some c0 =>
    dsimp only
    have up : ∀ i, 0 < i → Out.Sound
        (if i < min inCs.numComponents outCs.numComponents ∧
            (c0.horizontalSample ≠ 1 ∨ c0.verticalSample ≠ 1) then
          match comps[i]? with
          | none => .panic .index
          | some c => c.upSampler.run (planes.getD i []) (planes.getD 0 []).length
        else .ok (planes.getD i [])) := by
      intro i h0
      refine Out.sound_ite (fun hi => ?_) fun _ => Out.sound_ok _
      cases hc : comps[i]? with
      | none => exact Out.sound_panic (by decide)
      | some c => exact sound_upsampler _ fun hu => h i c h0 hi.1 hc hu
    refine (up 1 (by omega)).bind fun cb _ => (up 2 (by omega)).bind fun cr _ => ?_
    refine Out.sound_ite (fun _ => Out.sound_panic (by decide)) fun _ => ?_
    split
    · exact sound_grayscale _ _ _
    · exact sound_grayscale _ _ _
    · exact sound_ycbcr _ _ _ _ _ _ _
    · exact sound_colorConvert _ _ _ _ _ _ _ _ _
    · exact sound_colorConvert _ _ _ _ _ _ _ _ _
    · exact sound_colorConvert _ _ _ _ _ _ _ _ _
    · exact Out.sound_ok _

theorem sound_postProcess (idct : IdctFn) (f : ColorFn) (comps : List Component)
    (inCs outCs : ColorSpace) (width : Nat) (coeff : List (List I16)) (out : List UInt8)
    (h : UpOk comps (min inCs.numComponents outCs.numComponents) fun i => (coeff.getD i []).length) :
    (postProcess idct f comps inCs outCs width coeff out).Sound := by
  unfold postProcess
  dsimp only
  cases comps[0]? with
  | none => exact Out.sound_panic (by decide)
  | some c0 =>
    dsimp only
    generalize hx : min inCs.numComponents outCs.numComponents = x at *
    refine Out.Sound.bind (Out.sound_collect fun o ho => ?_) fun planes hp => ?_
    · obtain ⟨z, -, rfl⟩ := List.mem_map.1 ho
      unfold idctComponent
      split
      · exact (sound_idctStrip _ _ _ _ _ _).1
      · exact Out.sound_panic (by decide)
    · refine sound_postProcessInner _ _ _ _ _ _ _ ?_
      rw [hx]
      have hl : ∀ i, i < x → (planes.getD i []).length = (coeff.getD i []).length := by
        intro i hi
        have he := (Out.collect_ok_iff).1 hp
        have hlen := congrArg List.length he
        rw [List.length_map, List.length_map, List.length_range] at hlen
        have hg := congrArg (fun l => l[i]?) he
        rw [List.getElem?_map, List.getElem?_map, List.getElem?_range hi] at hg
        obtain ⟨p, hp⟩ : ∃ p, planes[i]? = some p := ⟨_, List.getElem?_eq_getElem (by omega)⟩
        rw [hp] at hg
        simp only [Option.map_some, Option.some.injEq] at hg
        unfold idctComponent at hg
        split at hg
        · rename_i c comp h1 h2
          rw [List.getD_eq_getElem?_getD, List.getD_eq_getElem?_getD, hp, h1]
          exact (sound_idctStrip _ _ _ _ _ _).2 _ hg
        · cases hg
      intro i c h0 hi hc hu
      have := h i c h0 hi hc hu
      dsimp only at this ⊢
      rw [hl i hi, hl 0 (by omega)]
      exact this

end Zune
