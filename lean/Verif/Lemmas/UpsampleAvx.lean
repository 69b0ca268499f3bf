import Verif.Lemmas.Upsample
/-! The AVX2 code for 2x2 upsampling: it stays in bounds, and what it stores away from the joints. -/

namespace Zune

/-- Output column `x` is neither the first nor the last of the 32 columns written at once, and is not
in the last 32 columns of a row of `r` columns. -/
def Interior (r x : Nat) : Prop := x + 32 < r ∧ 0 < x % 32 ∧ x % 32 < 31

/-- Vertical then horizontal interpolation in output row `2 * k + e`, column `x`, rows of `s` columns. -/
def hvAt (input : List I16) (s k e x : Nat) : I16 :=
  if x % 2 = 0 then tri (verticalAt input s k e (x / 2)) (verticalAt input s k e (x / 2 - 1))
  else tri (verticalAt input s k e (x / 2)) (verticalAt input s k e (x / 2 + 1))

theorem length_hvRow {row : List I16} (h : row.length = 16) (p f : I16) :
    (hvRow row p f).length = 32 := by
  unfold hvRow
  dsimp only
  rw [length_pairs (f := fun w : I16 × I16 × I16 => tri w.1 w.2.1) (g := fun w => tri w.1 w.2.2)]
  simp only [List.length_zip, List.length_cons, List.length_take, List.length_append,
    List.length_drop, List.length_nil]
  omega

theorem hvRow_get {row : List I16} (h : row.length = 16) (p f : I16) {x : Nat} (hx : x < 32) :
    (hvRow row p f)[x]? = some (if x % 2 = 0
      then tri (at0 row (x / 2)) (if x = 0 then p else at0 row (x / 2 - 1))
      else tri (at0 row (x / 2)) (if x = 31 then f else at0 row (x / 2 + 1))) := by
  unfold hvRow
  dsimp only
  have hsplit : x = 2 * (x / 2) + x % 2 := by omega
  obtain ⟨i, hi⟩ : ∃ i, x / 2 = i := ⟨_, rfl⟩
  obtain ⟨e, he⟩ : ∃ e, x % 2 = e := ⟨_, rfl⟩
  rw [hi, he] at hsplit ⊢
  have hi16 : i < 16 := by omega
  conv_lhs => rw [hsplit]
  rw [
    getElem?_pairs (f := fun w : I16 × I16 × I16 => tri w.1 w.2.1) (g := fun w => tri w.1 w.2.2)
      (by omega)]
  have e1 : row[i]? = some (at0 row i) := getElem?_at0 (by omega)
  have e2 : (p :: row.take 15)[i]? = some (if i = 0 then p else at0 row (i - 1)) := by
    cases i with
    | zero => rfl
    | succ i =>
      rw [List.getElem?_cons_succ, List.getElem?_take, if_pos (by omega), getElem?_at0 (by omega),
        if_neg (by omega)]
      rfl
  have e3 : (row.drop 1 ++ [f])[i]? = some (if i = 15 then f else at0 row (i + 1)) := by
    by_cases h15 : i = 15
    · subst h15
      rw [List.getElem?_append_right (by rw [List.length_drop]; omega), List.length_drop, h,
        if_pos rfl]
      rfl
    · rw [List.getElem?_append_left (by rw [List.length_drop]; omega), List.getElem?_drop,
        if_neg h15, Nat.add_comm 1 i, getElem?_at0 (by omega)]
  have e4 : (row.zip ((p :: row.take 15).zip (row.drop 1 ++ [f])))[i]? = some (at0 row i,
      (if i = 0 then p else at0 row (i - 1)), (if i = 15 then f else at0 row (i + 1))) :=
    List.getElem?_zip_eq_some.2 ⟨e1, List.getElem?_zip_eq_some.2 ⟨e2, e3⟩⟩
  rw [e4, Option.map_some]
  by_cases hp : e = 0
  · rw [if_pos hp, if_pos hp]
    dsimp only
    by_cases h0 : i = 0
    · rw [if_pos h0, if_pos (by omega)]
    · rw [if_neg h0, if_neg (by omega)]
  · rw [if_neg hp, if_neg hp]
    dsimp only
    by_cases h0 : i = 15
    · rw [if_pos h0, if_pos (by omega)]
    · rw [if_neg h0, if_neg (by omega)]

theorem length_hvTail (input : List I16) (pos v : Nat) (last : I16) (h : 0 < v) :
    (hvTail input pos v last).length = v := by
  unfold hvTail
  dsimp only
  rw [length_writeAt (by rw [length_fit]; simp; omega), length_fit]

theorem take_at0 {input : List I16} {pos n t : Nat} (ht : t < n) :
    at0 ((input.drop pos).take n) t = at0 input (pos + t) := by
  unfold at0
  rw [List.getD_eq_getElem?_getD, List.getD_eq_getElem?_getD, List.getElem?_take, if_pos ht,
    List.getElem?_drop]

theorem zip_tri {a b : List I16} {t : Nat} (ha : t < a.length) (hb : t < b.length) :
    at0 (List.zipWith tri a b) t = tri (at0 a t) (at0 b t) := by
  have := getElem?_at0 (l := List.zipWith tri a b) (k := t) (by rw [List.length_zipWith]; omega)
  rw [List.getElem?_zipWith, getElem?_at0 ha, getElem?_at0 hb] at this
  exact (Option.some.inj this).symm

/-- What is written in the last 32 columns, but for the very last one. -/
theorem hvTail_get {input : List I16} {pos : Nat} (h1 : 18 ≤ pos) (h2 : pos ≤ input.length) (last : I16)
    {y : Nat} (hy : y < 31) : (hvTail input pos 32 last)[y]? = some (if y % 2 = 0
      then tri (at0 input (pos - 17 + y / 2)) (at0 input (pos - 18 + y / 2))
      else tri (at0 input (pos - 17 + y / 2)) (at0 input (pos - 16 + y / 2))) := by
  unfold hvTail
  dsimp only
  rw [getElem?_writeAt (by rw [length_fit]; simp), if_neg (by simp; omega)]
  have hlen : ((input.drop (pos - 32 / 2 - 2)).take (32 / 2 + 2)).length = 18 := by
    rw [List.length_take, List.length_drop]
    omega
  have hw := length_windows3 (l := (input.drop (pos - 32 / 2 - 2)).take (32 / 2 + 2)) (by omega)
  have hfl := length_pairs (f := fun w : I16 × I16 × I16 => tri w.2.1 w.1)
    (g := fun w => tri w.2.1 w.2.2) (windows3 ((input.drop (pos - 32 / 2 - 2)).take (32 / 2 + 2)))
  unfold fit
  rw [List.getElem?_take, if_pos (by omega), List.getElem?_append_left (by
    rw [List.length_take, hfl]
    omega), List.getElem?_take, if_pos (by omega)]
  obtain ⟨i, hi⟩ : ∃ i, y / 2 = i := ⟨_, rfl⟩
  obtain ⟨e, he⟩ : ∃ e, y % 2 = e := ⟨_, rfl⟩
  have hsplit : y = 2 * i + e := by omega
  rw [hi, he]
  conv_lhs => rw [hsplit]
  rw [getElem?_pairs (f := fun w : I16 × I16 × I16 => tri w.2.1 w.1) (g := fun w => tri w.2.1 w.2.2)
    (by omega), getElem?_windows3 (by omega), Option.map_some, take_at0 (by omega), take_at0 (by omega),
    take_at0 (by omega)]
  have a1 : pos - 32 / 2 - 2 + (i + 1) = pos - 17 + i := by omega
  have a2 : pos - 32 / 2 - 2 + i = pos - 18 + i := by omega
  have a3 : pos - 32 / 2 - 2 + (i + 2) = pos - 16 + i := by omega
  rw [a1, a2, a3]

/-- The stride in round `j`. -/
def hvStride (s j : Nat) : Nat := if j = 0 ∨ 7 ≤ j then 0 else s

theorem hvStride_far {s j : Nat} (h : j < 8) : j * s + hvStride s j = farRow j * s := by
  unfold hvStride farRow
  by_cases h0 : j = 0
  · subst h0
    simp
  · by_cases h7 : j = 7
    · subst h7
      simp
    · rw [if_neg (by omega), if_neg h0, show min (j + 1) 7 = j + 1 by omega]
      ring

/-- What the code carries from one group of 32 columns to the next in place of a neighbouring value:
`3 * (a + b + 2) >> 2` of the samples `a` and `b`. -/
def hvCarry (input : List I16) (p st : Nat) : I16 :=
  (3 * (at0 input p + at0 input (p + st) + 2)).sshiftRight 2

/-- The value taken as left neighbour of the first column of group `k` of round `j`. -/
def hvPrev (input : List I16) (q j k : Nat) : I16 :=
  if 0 < k then hvCarry input (j * (16 * q) + 16 * k) (hvStride (16 * q) j)
  else if j = 0 then tri (at0 input 0) (at0 input 0)
  else hvCarry input ((j - 1) * (16 * q) + 16 * (q - 1)) (hvStride (16 * q) (j - 1))

/-- The value taken as right neighbour of the last column of group `k` of round `j`. -/
def hvFar (input : List I16) (q j k : Nat) : I16 :=
  if 0 < k then hvCarry input (j * (16 * q) + 16 * k + 16) (hvStride (16 * q) j)
  else if j = 0 then tri (at0 input 16) (at0 input 16)
  else hvCarry input (j * (16 * q)) (hvStride (16 * q) (j - 1))

/-- What is first stored in output row `2 * j + e`, column `x`: in the last 32 columns a horizontal
interpolation of one input row, 17 columns to the left of the right place. -/
def hvRaw (input : List I16) (q j e x : Nat) : I16 :=
  if x < 32 * (q - 1) then
    if x % 32 = 0 then tri (verticalAt input (16 * q) j e (x / 2)) (hvPrev input q j (x / 32))
    else if x % 32 = 31 then tri (verticalAt input (16 * q) j e (x / 2)) (hvFar input q j (x / 32))
    else hvAt input (16 * q) j e x
  else
    let p := (if e = 0 then j else farRow j) * (16 * q) + x / 2
    if x % 2 = 0 then tri (at0 input (p - 17)) (at0 input (p - 18))
    else tri (at0 input (p - 17)) (at0 input (p - 16))

/-- The columns that are overwritten at the end of a round, and with which. -/
def hvMoved (q e x : Nat) : Nat :=
  if e = 1 ∧ x = 0 then 1 else if 32 * q - 2 ≤ x then x - 2 else x

/-- What the AVX2 code leaves in output row `2 * j + e`, column `x`. -/
def hvExact (input : List I16) (q j e x : Nat) : I16 := hvRaw input q j e (hvMoved q e x)

/-- What is known of the output: the rows of the rounds before `j`, and of round `j` the columns
before `32 * k`. -/
def HvDone (input : List I16) (q j k : Nat) (o : List I16) : Prop :=
  ∀ j' e x, j' < 8 → e < 2 → x < 32 * q →
    (j' < j → o[(2 * j' + e) * (2 * (16 * q)) + x]? = some (hvExact input q j' e x)) ∧
    (j' = j → x < 32 * k → o[(2 * j' + e) * (2 * (16 * q)) + x]? = some (hvRaw input q j' e x))

theorem row_disjoint {R a x b y : Nat} (hx : x < R) (hy : y < R) (h : a ≠ b) :
    a * R + x ≠ b * R + y := by
  intro e
  exact h (row_col hx hy e).1

/-- Sixteen columns of round `j`. -/
theorem hvInner_step {input : List I16} {q j k : Nat} (hq : input.length = 128 * q)
    (hj : j < 8) (hk : k + 1 < q) {s : HvState} (hl : s.out.length = 512 * q)
    (hpos : s.pos = j * (16 * q) + 16 * k) (hopos : s.opos = 2 * j * (2 * (16 * q)) + 32 * k)
    (hst : s.stride = hvStride (16 * q) j) (hprev : s.prev = hvPrev input q j k)
    (hfarv : s.far = hvFar input q j k) (hd : HvDone input q j k s.out) (n : Nat) :
    ∃ s', hvInner input (32 * q) s n = .ok s' ∧ s'.out.length = 512 * q ∧
      s'.pos = j * (16 * q) + 16 * (k + 1) ∧ s'.opos = 2 * j * (2 * (16 * q)) + 32 * (k + 1) ∧
      s'.stride = s.stride ∧ s'.prev = hvPrev input q j (k + 1) ∧ s'.far = hvFar input q j (k + 1) ∧
      HvDone input q j (k + 1) s'.out := by
  have hfar := hvStride_far (s := 16 * q) hj
  rw [← hst] at hfar
  have hfl : (farRow j + 1) * (16 * q) ≤ 8 * (16 * q) :=
    Nat.mul_le_mul_right _ (by have := farRow_lt (k := j); omega)
  have hjl : (j + 1) * (16 * q) ≤ 8 * (16 * q) := Nat.mul_le_mul_right _ (by omega)
  have hol : (2 * j + 2) * (2 * (16 * q)) ≤ 16 * (2 * (16 * q)) := Nat.mul_le_mul_right _ (by omega)
  rw [Nat.add_mul] at hfl hjl hol
  unfold hvInner loadUnchecked
  rw [if_neg (by omega), if_pos (by omega), if_pos (by omega)]
  simp only [Out.bind]
  have ln : ((input.drop s.pos).take 16).length = 16 := by
    rw [List.length_take, List.length_drop]
    omega
  have lf : ((input.drop (s.pos + s.stride)).take 16).length = 16 := by
    rw [List.length_take, List.length_drop]
    omega
  generalize hN : (input.drop s.pos).take 16 = near at *
  generalize hF : (input.drop (s.pos + s.stride)).take 16 = fr at *
  have l1 : (hvRow (List.zipWith tri near fr) s.prev s.far).length = 32 :=
    length_hvRow (by rw [List.length_zipWith, ln, lf]; rfl) _ _
  have l2 : (hvRow (List.zipWith tri fr near) s.prev s.far).length = 32 :=
    length_hvRow (by rw [List.length_zipWith, ln, lf]; rfl) _ _
  have w1 := length_writeAt (l := s.out) (pos := s.opos) (xs := hvRow (List.zipWith tri near fr) s.prev s.far)
    (by omega)
  rw [writeChecked_ok (by omega)]
  dsimp only
  rw [writeChecked_ok (by omega)]
  dsimp only
  rw [if_neg (by omega)]
  refine ⟨_, rfl, ?_, by show s.pos + 16 = _; omega, by show s.opos + 32 = _; omega, rfl, ?_, ?_, ?_⟩
  · show (writeAt _ _ _).length = _
    rw [length_writeAt (by omega)]
    omega
  · show (3 * (at0 input (s.pos + 16) + at0 input (s.pos + 16 + s.stride) + 2)).sshiftRight 2 = _
    unfold hvPrev hvCarry
    rw [if_pos (by omega), ← hst, hpos, Nat.mul_add 16 k 1, Nat.mul_one, ← Nat.add_assoc]
  · show (3 * (at0 input (s.pos + 16 + 16) + at0 input (s.pos + 16 + s.stride + 16) + 2)).sshiftRight 2 = _
    unfold hvFar hvCarry
    rw [if_pos (by omega), ← hst, hpos, Nat.mul_add 16 k 1, Nat.mul_one, ← Nat.add_assoc,
      Nat.add_right_comm _ s.stride 16]
  · intro j' e x hj' he hxq
    show (_ → (writeAt (writeAt s.out s.opos _) (s.opos + 32 * q) _)[_]? = _) ∧
      (_ → _ → (writeAt (writeAt s.out s.opos _) (s.opos + 32 * q) _)[_]? = _)
    rw [getElem?_writeAt (by omega), getElem?_writeAt (by omega), l1, l2]
    have hxr : x < 2 * (16 * q) := by omega
    have ho1 : s.opos + 32 * q = (2 * j + 1) * (2 * (16 * q)) + 32 * k := by
      rw [Nat.add_mul (2 * j)]
      omega
    -- values of the rows that were just interpolated
    have hnear : ∀ t, t < 16 → at0 near t = at0 input (j * (16 * q) + (16 * k + t)) := by
      intro t ht
      rw [← hN, take_at0 ht]
      congr 1
      omega
    have hfr : ∀ t, t < 16 → at0 fr t = at0 input (farRow j * (16 * q) + (16 * k + t)) := by
      intro t ht
      rw [← hF, take_at0 ht]
      congr 1
      omega
    -- a group that has just been written
    have hgroup : ∀ (row : List I16), row.length = 16 → 32 * k ≤ x → x < 32 * k + 32 →
        (∀ t, t < 16 → at0 row t = verticalAt input (16 * q) j e (16 * k + t)) →
        (hvRow row s.prev s.far)[x - 32 * k]? = some (hvRaw input q j e x) := by
      intro row hr hx1 hx2 hv
      rw [hvRow_get hr _ _ (by omega)]
      unfold hvRaw hvAt
      have hxg : x < 32 * (q - 1) := by omega
      rw [if_pos hxg, show (x - 32 * k) % 2 = x % 2 by omega, hv _ (by omega),
        show 16 * k + (x - 32 * k) / 2 = x / 2 by omega, show x / 32 = k by omega, hprev, hfarv]
      congr 1
      by_cases h0 : x % 32 = 0
      · rw [if_pos h0, if_pos (by omega), if_pos (by omega)]
      · rw [if_neg h0]
        by_cases h31 : x % 32 = 31
        · rw [if_pos h31, if_neg (by omega), if_pos (by omega)]
        · rw [if_neg h31]
          by_cases hpar : x % 2 = 0
          · rw [if_pos hpar, if_pos hpar, if_neg (by omega), hv _ (by omega),
              show 16 * k + ((x - 32 * k) / 2 - 1) = x / 2 - 1 by omega]
          · rw [if_neg hpar, if_neg hpar, if_neg (by omega), hv _ (by omega),
              show 16 * k + ((x - 32 * k) / 2 + 1) = x / 2 + 1 by omega]
    by_cases hrow : 2 * j' + e = 2 * j ∧ 32 * k ≤ x ∧ x < 32 * k + 32
    · obtain ⟨hr1, hx1, hx2⟩ := hrow
      have hj0 : j' = j := by omega
      have he0 : e = 0 := by omega
      subst hj0 he0
      have hpos1 : (2 * j' + 0) * (2 * (16 * q)) + x = s.opos + (x - 32 * k) := by
        rw [hopos, Nat.add_zero]
        omega
      rw [hpos1, if_neg (by omega), if_pos (by omega), Nat.add_sub_cancel_left]
      refine ⟨fun h => absurd h (by omega), fun _ _ => ?_⟩
      refine hgroup _ (by rw [List.length_zipWith, ln, lf]; rfl) hx1 hx2 fun t ht => ?_
      rw [zip_tri (by omega) (by omega), hnear t ht, hfr t ht]
      rfl
    · by_cases hrow2 : 2 * j' + e = 2 * j + 1 ∧ 32 * k ≤ x ∧ x < 32 * k + 32
      · obtain ⟨hr1, hx1, hx2⟩ := hrow2
        have hj0 : j' = j := by omega
        have he0 : e = 1 := by omega
        subst hj0 he0
        have hpos1 : (2 * j' + 1) * (2 * (16 * q)) + x = s.opos + 32 * q + (x - 32 * k) := by
          omega
        rw [hpos1, if_pos (by omega), Nat.add_sub_cancel_left]
        refine ⟨fun h => absurd h (by omega), fun _ _ => ?_⟩
        refine hgroup _ (by rw [List.length_zipWith, ln, lf]; rfl) hx1 hx2 fun t ht => ?_
        rw [zip_tri (by omega) (by omega), hnear t ht, hfr t ht]
        rfl
      · -- not touched by this step
        have hne : ∀ b, (b = 2 * j ∨ b = 2 * j + 1) →
            ¬ (b * (2 * (16 * q)) + 32 * k ≤ (2 * j' + e) * (2 * (16 * q)) + x ∧
              (2 * j' + e) * (2 * (16 * q)) + x < b * (2 * (16 * q)) + 32 * k + 32) := by
          intro b hb ⟨h1, h2⟩
          have := row_col (n := 2 * (16 * q)) (r := 2 * j' + e) (c := x) (r' := b)
            (c' := (2 * j' + e) * (2 * (16 * q)) + x - b * (2 * (16 * q))) hxr (by omega) (by omega)
          omega
        rw [if_neg (by rw [ho1]; exact hne _ (.inr rfl)), if_neg (by rw [hopos]; exact hne _ (.inl rfl))]
        refine ⟨(hd j' e x hj' he hxq).1, fun h1 h2 => (hd j' e x hj' he hxq).2 h1 ?_⟩
        subst h1
        omega

/-- The five assignments at the end of a round. -/
theorem hvSets_get {q j : Nat} (hq3 : 3 ≤ q) {o : List I16} (raw : Nat → Nat → I16) {P : Nat → Nat → Nat}
    (hP : ∀ e x e' x', e < 2 → e' < 2 → x < 32 * q → x' < 32 * q → P e x = P e' x' → e = e' ∧ x = x')
    (hin : ∀ e x, e < 2 → x < 32 * q → P e x < o.length)
    (hraw : ∀ e x, e < 2 → x + 1 < 32 * q → o[P e x]? = some (raw e x)) :
    ∀ o', (let o1 := o.set (P 1 0) (o.getD (P 1 1) 0)
      let o2 := o1.set (P 0 (32 * q - 2)) (o1.getD (P 0 (32 * q - 4)) 0)
      let o3 := o2.set (P 0 (32 * q - 1)) (o2.getD (P 0 (32 * q - 3)) 0)
      let o4 := o3.set (P 1 (32 * q - 2)) (o3.getD (P 1 (32 * q - 4)) 0)
      o4.set (P 1 (32 * q - 1)) (o4.getD (P 1 (32 * q - 3)) 0)) = o' →
    (∀ e x, e < 2 → x < 32 * q → o'[P e x]? = some (raw e (hvMoved q e x))) ∧
    (∀ p, (∀ e x, e < 2 → x < 32 * q → P e x ≠ p) → o'[p]? = o[p]?) := by
  intro o' ho'
  dsimp only at ho'
  have hval : ∀ (l : List I16) e x, e < 2 → x + 1 < 32 * q → l[P e x]? = o[P e x]? →
      l.getD (P e x) 0 = raw e x := by
    intro l e x he hx hle
    rw [List.getD_eq_getElem?_getD, hle, hraw e x he hx]
    rfl
  have hne : ∀ e x e' x', e < 2 → e' < 2 → x < 32 * q → x' < 32 * q → ¬ (e = e' ∧ x = x') → P e x ≠ P e' x' :=
    fun e x e' x' he he' hx hx' hn heq => hn (hP e x e' x' he he' hx hx' heq)
  have n0 := hne 1 0
  have n1 := hne 0 (32 * q - 2)
  have n2 := hne 0 (32 * q - 1)
  have n3 := hne 1 (32 * q - 2)
  have n4 := hne 1 (32 * q - 1)
  rw [hval o 1 1 (by omega) (by omega) rfl] at ho'
  rw [hval _ 0 (32 * q - 4) (by omega) (by omega) (by
    rw [List.getElem?_set_ne (n0 _ _ (by omega) (by omega) (by omega) (by omega) (by omega))])] at ho'
  rw [hval _ 0 (32 * q - 3) (by omega) (by omega) (by
    rw [List.getElem?_set_ne (n1 _ _ (by omega) (by omega) (by omega) (by omega) (by omega)),
      List.getElem?_set_ne (n0 _ _ (by omega) (by omega) (by omega) (by omega) (by omega))])] at ho'
  rw [hval _ 1 (32 * q - 4) (by omega) (by omega) (by
    rw [List.getElem?_set_ne (n2 _ _ (by omega) (by omega) (by omega) (by omega) (by omega)),
      List.getElem?_set_ne (n1 _ _ (by omega) (by omega) (by omega) (by omega) (by omega)),
      List.getElem?_set_ne (n0 _ _ (by omega) (by omega) (by omega) (by omega) (by omega))])] at ho'
  rw [hval _ 1 (32 * q - 3) (by omega) (by omega) (by
    rw [List.getElem?_set_ne (n3 _ _ (by omega) (by omega) (by omega) (by omega) (by omega)),
      List.getElem?_set_ne (n2 _ _ (by omega) (by omega) (by omega) (by omega) (by omega)),
      List.getElem?_set_ne (n1 _ _ (by omega) (by omega) (by omega) (by omega) (by omega)),
      List.getElem?_set_ne (n0 _ _ (by omega) (by omega) (by omega) (by omega) (by omega))])] at ho'
  subst ho'
  simp only [List.getElem?_set, List.length_set, hin 1 0 (by omega) (by omega),
    hin 0 (32 * q - 2) (by omega) (by omega), hin 0 (32 * q - 1) (by omega) (by omega),
    hin 1 (32 * q - 2) (by omega) (by omega), hin 1 (32 * q - 1) (by omega) (by omega), if_true]
  constructor
  · intro e x he hx
    unfold hvMoved
    by_cases c4 : e = 1 ∧ x = 32 * q - 1
    · obtain ⟨rfl, rfl⟩ := c4
      rw [if_pos rfl, if_neg (by omega), if_pos (by omega), show 32 * q - 1 - 2 = 32 * q - 3 by omega]
    rw [if_neg (n4 _ _ (by omega) (by omega) (by omega) hx (by omega))]
    by_cases c3 : e = 1 ∧ x = 32 * q - 2
    · obtain ⟨rfl, rfl⟩ := c3
      rw [if_pos rfl, if_neg (by omega), if_pos (by omega), show 32 * q - 2 - 2 = 32 * q - 4 by omega]
    rw [if_neg (n3 _ _ (by omega) (by omega) (by omega) hx (by omega))]
    by_cases c2 : e = 0 ∧ x = 32 * q - 1
    · obtain ⟨rfl, rfl⟩ := c2
      rw [if_pos rfl, if_neg (by omega), if_pos (by omega), show 32 * q - 1 - 2 = 32 * q - 3 by omega]
    rw [if_neg (n2 _ _ (by omega) (by omega) (by omega) hx (by omega))]
    by_cases c1 : e = 0 ∧ x = 32 * q - 2
    · obtain ⟨rfl, rfl⟩ := c1
      rw [if_pos rfl, if_neg (by omega), if_pos (by omega), show 32 * q - 2 - 2 = 32 * q - 4 by omega]
    rw [if_neg (n1 _ _ (by omega) (by omega) (by omega) hx (by omega))]
    by_cases c0 : e = 1 ∧ x = 0
    · obtain ⟨rfl, rfl⟩ := c0
      rw [if_pos rfl, if_pos ⟨rfl, rfl⟩]
    rw [if_neg (n0 _ _ (by omega) (by omega) (by omega) hx (by omega)), if_neg c0, if_neg (by omega)]
    exact hraw e x he (by omega)
  · intro p hp
    rw [if_neg (hp _ _ (by omega) (by omega)), if_neg (hp _ _ (by omega) (by omega)),
      if_neg (hp _ _ (by omega) (by omega)), if_neg (hp _ _ (by omega) (by omega)),
      if_neg (hp _ _ (by omega) (by omega))]

/-- The end of a round, before the five assignments. -/
theorem hvTails_get {input : List I16} {q j : Nat} (hq : input.length = 128 * q) (hq3 : 3 ≤ q) (hj : j < 8)
    {s1 : HvState} (h1l : s1.out.length = 512 * q) (h1p : s1.pos = j * (16 * q) + 16 * (q - 1))
    (h1o : s1.opos = 2 * j * (2 * (16 * q)) + 32 * (q - 1)) (h1s : s1.stride = hvStride (16 * q) j)
    (h1d : HvDone input q j (q - 1) s1.out) {o : List I16}
    (ho : writeAt (writeAt s1.out s1.opos (hvTail input s1.pos 32 (input.getD s1.pos 0)))
      (s1.opos + 32 * q) (hvTail input (s1.pos + s1.stride) 32 (input.getD (s1.pos + s1.stride) 0)) = o) :
    o.length = 512 * q ∧
    (∀ j' e x, x < 32 * q → ¬ (j' = j ∧ 32 * (q - 1) ≤ x) → e < 2 →
      o[(2 * j' + e) * (2 * (16 * q)) + x]? = s1.out[(2 * j' + e) * (2 * (16 * q)) + x]?) ∧
    (∀ e x, e < 2 → x + 1 < 32 * q →
      o[(2 * j + e) * (2 * (16 * q)) + x]? = some (hvRaw input q j e x)) := by
  have hfar := hvStride_far (s := 16 * q) hj
  rw [← h1s] at hfar
  have hfl : (farRow j + 1) * (16 * q) ≤ 8 * (16 * q) :=
    Nat.mul_le_mul_right _ (by have := farRow_lt (k := j); omega)
  have hjl : (j + 1) * (16 * q) ≤ 8 * (16 * q) := Nat.mul_le_mul_right _ (by omega)
  have hol : (2 * j + 2) * (2 * (16 * q)) ≤ 16 * (2 * (16 * q)) := Nat.mul_le_mul_right _ (by omega)
  rw [Nat.add_mul] at hfl hjl hol
  have t1 := length_hvTail input s1.pos 32 (input.getD s1.pos 0) (by omega)
  have t2 := length_hvTail input (s1.pos + s1.stride) 32 (input.getD (s1.pos + s1.stride) 0) (by omega)
  have w1 := length_writeAt (l := s1.out) (pos := s1.opos)
    (xs := hvTail input s1.pos 32 (input.getD s1.pos 0)) (by omega)
  have w2 := length_writeAt (l := writeAt s1.out s1.opos (hvTail input s1.pos 32 (input.getD s1.pos 0)))
    (pos := s1.opos + 32 * q)
    (xs := hvTail input (s1.pos + s1.stride) 32 (input.getD (s1.pos + s1.stride) 0)) (by omega)
  have hol' : o.length = 512 * q := by rw [← ho, w2, w1, h1l]
  have hb1 : (2 * j + 1) * (2 * (16 * q)) = 2 * j * (2 * (16 * q)) + 2 * (16 * q) := by ring
  have ho0 : s1.opos = (2 * j + 0) * (2 * (16 * q)) + 32 * (q - 1) := by
    rw [Nat.add_zero]
    omega
  have ho1 : s1.opos + 32 * q = (2 * j + 1) * (2 * (16 * q)) + 32 * (q - 1) := by omega
  have hR : 2 * (16 * q) = 32 * q := by ring
  -- an entry outside of the two groups that were just written
  have hold : ∀ j' e x, x < 32 * q → ¬ (j' = j ∧ 32 * (q - 1) ≤ x) → e < 2 →
      o[(2 * j' + e) * (2 * (16 * q)) + x]? = s1.out[(2 * j' + e) * (2 * (16 * q)) + x]? := by
    intro j' e x hx hnot he
    have hne : ∀ b, b = 2 * j ∨ b = 2 * j + 1 →
        ¬ (b * (2 * (16 * q)) + 32 * (q - 1) ≤ (2 * j' + e) * (2 * (16 * q)) + x ∧
          (2 * j' + e) * (2 * (16 * q)) + x < b * (2 * (16 * q)) + 32 * (q - 1) + 32) := by
      intro b hb ⟨h1, h2⟩
      have := row_col (n := 2 * (16 * q)) (r := 2 * j' + e) (c := x) (r' := b)
        (c' := (2 * j' + e) * (2 * (16 * q)) + x - b * (2 * (16 * q))) (by omega) (by omega) (by omega)
      omega
    rw [← ho, getElem?_writeAt (by omega), getElem?_writeAt (by omega), t1, t2,
      if_neg (by rw [ho1]; exact hne _ (.inr rfl)), if_neg (by rw [ho0]; exact hne _ (.inl rfl))]
  have hraw : ∀ e x, e < 2 → x + 1 < 32 * q →
      o[(2 * j + e) * (2 * (16 * q)) + x]? = some (hvRaw input q j e x) := by
    intro e x he hx
    by_cases hx1 : x < 32 * (q - 1)
    · rw [hold j e x (by omega) (by omega) he]
      exact (h1d j e x hj he (by omega)).2 rfl hx1
    · rw [← ho, getElem?_writeAt (by omega), getElem?_writeAt (by omega), t1, t2]
      unfold hvRaw
      rw [if_neg hx1]
      dsimp only
      have hcase : e = 0 ∨ e = 1 := by omega
      rcases hcase with rfl | rfl
      · have hp1 : (2 * j + 0) * (2 * (16 * q)) + x = s1.opos + (x - 32 * (q - 1)) := by omega
        rw [hp1, if_neg (by omega), if_pos (by omega), Nat.add_sub_cancel_left,
          hvTail_get (by omega) (by omega) _ (by omega), if_pos rfl]
        refine congrArg some ?_
        have hd1 : s1.pos - 17 + (x - 32 * (q - 1)) / 2 = j * (16 * q) + x / 2 - 17 := by omega
        have hd2 : s1.pos - 18 + (x - 32 * (q - 1)) / 2 = j * (16 * q) + x / 2 - 18 := by omega
        have hd3 : s1.pos - 16 + (x - 32 * (q - 1)) / 2 = j * (16 * q) + x / 2 - 16 := by omega
        rw [hd1, hd2, hd3, show (x - 32 * (q - 1)) % 2 = x % 2 by omega]
      · have hp1 : (2 * j + 1) * (2 * (16 * q)) + x = s1.opos + 32 * q + (x - 32 * (q - 1)) := by omega
        rw [hp1, if_pos (by omega), Nat.add_sub_cancel_left,
          hvTail_get (by omega) (by omega) _ (by omega), if_neg (by omega : ¬ (1 : Nat) = 0)]
        refine congrArg some ?_
        have hd1 : s1.pos + s1.stride - 17 + (x - 32 * (q - 1)) / 2 = farRow j * (16 * q) + x / 2 - 17 := by
          omega
        have hd2 : s1.pos + s1.stride - 18 + (x - 32 * (q - 1)) / 2 = farRow j * (16 * q) + x / 2 - 18 := by
          omega
        have hd3 : s1.pos + s1.stride - 16 + (x - 32 * (q - 1)) / 2 = farRow j * (16 * q) + x / 2 - 16 := by
          omega
        rw [hd1, hd2, hd3, show (x - 32 * (q - 1)) % 2 = x % 2 by omega]
  exact ⟨hol', hold, hraw⟩

/-- The whole end of a round. -/
theorem hvSets_done {input : List I16} {q j : Nat} (hq3 : 3 ≤ q) (hj : j < 8) {o1 o o' : List I16} {P : Nat}
    (hP : P = 2 * j * (2 * (16 * q)) + 64 * q) (hol' : o.length = 512 * q)
    (h1d : HvDone input q j (q - 1) o1)
    (hold : ∀ j' e x, x < 32 * q → ¬ (j' = j ∧ 32 * (q - 1) ≤ x) → e < 2 →
      o[(2 * j' + e) * (2 * (16 * q)) + x]? = o1[(2 * j' + e) * (2 * (16 * q)) + x]?)
    (hraw : ∀ e x, e < 2 → x + 1 < 32 * q →
      o[(2 * j + e) * (2 * (16 * q)) + x]? = some (hvRaw input q j e x))
    (hgo : (let g (o : List I16) (k : Nat) : I16 := o.getD k 0
      let out := o.set (P - 32 * q) (g o (P - 32 * q + 1))
      let out := out.set (P - 32 * q - 2) (g out (P - 32 * q - 4))
      let out := out.set (P - 32 * q - 1) (g out (P - 32 * q - 3))
      let out := out.set (P - 2) (g out (P - 4))
      out.set (P - 1) (g out (P - 3))) = o') : HvDone input q (j + 1) 0 o' := by
  have hol : (2 * j + 2) * (2 * (16 * q)) ≤ 16 * (2 * (16 * q)) := Nat.mul_le_mul_right _ (by omega)
  rw [Nat.add_mul] at hol
  have hb1 : (2 * j + 1) * (2 * (16 * q)) = 2 * j * (2 * (16 * q)) + 2 * (16 * q) := by ring
  have hz : (2 * j + 0) * (2 * (16 * q)) = 2 * j * (2 * (16 * q)) := by rw [Nat.add_zero]
  have p0 : P - 32 * q = (2 * j + 1) * (2 * (16 * q)) + 0 := by omega
  have p1 : P - 32 * q - 2 = (2 * j + 0) * (2 * (16 * q)) + (32 * q - 2) := by omega
  have p2 : P - 32 * q - 1 = (2 * j + 0) * (2 * (16 * q)) + (32 * q - 1) := by omega
  have p3 : P - 2 = (2 * j + 1) * (2 * (16 * q)) + (32 * q - 2) := by omega
  have p4 : P - 1 = (2 * j + 1) * (2 * (16 * q)) + (32 * q - 1) := by omega
  have r0 : P - 32 * q + 1 = (2 * j + 1) * (2 * (16 * q)) + 1 := by omega
  have r1 : P - 32 * q - 4 = (2 * j + 0) * (2 * (16 * q)) + (32 * q - 4) := by omega
  have r2 : P - 32 * q - 3 = (2 * j + 0) * (2 * (16 * q)) + (32 * q - 3) := by omega
  have r3 : P - 4 = (2 * j + 1) * (2 * (16 * q)) + (32 * q - 4) := by omega
  have r4 : P - 3 = (2 * j + 1) * (2 * (16 * q)) + (32 * q - 3) := by omega
  dsimp only at hgo
  rw [r0, r1, r2, r3, r4, p1, p2, p3, p4, p0] at hgo
  obtain ⟨g1, g2⟩ := hvSets_get (j := j) hq3 (o := o) (hvRaw input q j)
    (P := fun e x => (2 * j + e) * (2 * (16 * q)) + x) (by
      intro e x e' x' he he' hx hx' heq
      have := row_col (n := 2 * (16 * q)) (by omega) (by omega) heq
      omega) (by
      intro e x he hx
      have : (2 * j + e) * (2 * (16 * q)) ≤ (2 * j + 1) * (2 * (16 * q)) := Nat.mul_le_mul_right _ (by omega)
      show (2 * j + e) * (2 * (16 * q)) + x < _
      omega) hraw o' hgo
  intro j' e x hj' he hx
  refine ⟨fun hlt => ?_, fun _ h => absurd h (by omega)⟩
  by_cases hjj : j' = j
  · subst hjj
    exact g1 e x he hx
  · rw [g2 _ (by
      intro e' x' he' hx' heq
      have := row_col (n := 2 * (16 * q)) (by omega) (by omega) heq
      omega), hold j' e x hx (by omega) he]
    exact (h1d j' e x hj' he hx).1 (by omega)

/-- One input row. -/
theorem hvOuter_step {input : List I16} {q j : Nat} (hq : input.length = 128 * q) (hq3 : 3 ≤ q)
    (hj : j < 8) {s : HvState} (hl : s.out.length = 512 * q)
    (hpos : s.pos = j * (16 * q)) (hopos : s.opos = 2 * j * (2 * (16 * q)))
    (hst : s.stride = hvStride (16 * q) j) (hprev : s.prev = hvPrev input q j 0)
    (hfarv : s.far = hvFar input q j 0) (hd : HvDone input q j 0 s.out) :
    ∃ s', hvOuter input (32 * q) (q - 1) 32 s j = .ok s' ∧ s'.out.length = 512 * q ∧
      s'.pos = (j + 1) * (16 * q) ∧ s'.opos = 2 * (j + 1) * (2 * (16 * q)) ∧
      s'.stride = hvStride (16 * q) (j + 1) ∧ s'.prev = hvPrev input q (j + 1) 0 ∧
      s'.far = hvFar input q (j + 1) 0 ∧ HvDone input q (j + 1) 0 s'.out := by
  obtain ⟨s1, e1, h1l, h1p, h1o, h1s, h1v, h1f, h1d⟩ := Out.fold_inv (f := hvInner input (32 * q))
    (P := fun k s' => s'.out.length = 512 * q ∧ s'.pos = j * (16 * q) + 16 * k ∧
      s'.opos = 2 * j * (2 * (16 * q)) + 32 * k ∧ s'.stride = hvStride (16 * q) j ∧
      s'.prev = hvPrev input q j k ∧ s'.far = hvFar input q j k ∧
      HvDone input q j k s'.out) (l := List.range (q - 1)) (b := s) (k := 0)
    ⟨hl, by omega, by omega, hst, hprev, hfarv, hd⟩ (by
      intro i b a ha ⟨b1, b2, b3, b4, b5, b6, b7⟩
      obtain ⟨ha', -⟩ := List.getElem?_eq_some_iff.1 ha
      rw [List.length_range] at ha'
      obtain ⟨s', c0, c1, c2, c3, c4, c5⟩ := hvInner_step hq hj (by omega) b1 b2 b3 b4 b5 b6 b7 a
      exact ⟨s', c0, c1, c2, c3, by rw [c4, b4], c5⟩)
  rw [List.length_range, Nat.zero_add] at h1p h1o h1d h1v h1f
  have hfar := hvStride_far (s := 16 * q) hj
  rw [← h1s] at hfar
  have hfl : (farRow j + 1) * (16 * q) ≤ 8 * (16 * q) :=
    Nat.mul_le_mul_right _ (by have := farRow_lt (k := j); omega)
  have hjl : (j + 1) * (16 * q) ≤ 8 * (16 * q) := Nat.mul_le_mul_right _ (by omega)
  have hol : (2 * j + 2) * (2 * (16 * q)) ≤ 16 * (2 * (16 * q)) := Nat.mul_le_mul_right _ (by omega)
  rw [Nat.add_mul] at hfl hjl hol
  unfold hvOuter
  rw [e1]
  simp only [Out.bind]
  rw [if_neg (by omega), if_neg (by omega)]
  have t1 := length_hvTail input s1.pos 32 (input.getD s1.pos 0) (by omega)
  have t2 := length_hvTail input (s1.pos + s1.stride) 32 (input.getD (s1.pos + s1.stride) 0) (by omega)
  have w1 := length_writeAt (l := s1.out) (pos := s1.opos)
    (xs := hvTail input s1.pos 32 (input.getD s1.pos 0)) (by omega)
  have w2 := length_writeAt (l := writeAt s1.out s1.opos (hvTail input s1.pos 32 (input.getD s1.pos 0)))
    (pos := s1.opos + 32 * q)
    (xs := hvTail input (s1.pos + s1.stride) 32 (input.getD (s1.pos + s1.stride) 0)) (by omega)
  obtain ⟨o, ho⟩ : ∃ o, writeAt (writeAt s1.out s1.opos (hvTail input s1.pos 32 (input.getD s1.pos 0)))
    (s1.opos + 32 * q) (hvTail input (s1.pos + s1.stride) 32 (input.getD (s1.pos + s1.stride) 0)) = o := ⟨_, rfl⟩
  obtain ⟨hol', hold, hraw⟩ := hvTails_get hq hq3 hj h1l h1p h1o h1s h1d ho
  rw [ho]
  refine ⟨_, rfl, ?_, ?_, ?_, ?_, ?_, ?_, ?_⟩
  · simp only [List.length_set]
    omega
  · show s1.pos + 32 / 2 = _
    rw [Nat.add_mul]
    omega
  · show s1.opos + 32 * q + 32 = _
    rw [show 2 * (j + 1) * (2 * (16 * q)) = 2 * j * (2 * (16 * q)) + 64 * q by ring]
    omega
  · show (if j = 6 then 0 else if j = 0 then input.length / 8 else s1.stride) = _
    unfold hvStride at *
    by_cases h6 : j = 6
    · subst h6
      rfl
    · rw [if_neg h6]
      by_cases h0 : j = 0
      · subst h0
        rw [if_pos rfl, if_neg (by omega)]
        omega
      · rw [if_neg h0, h1s]
        by_cases h7 : j = 7
        · subst h7
          rfl
        · rw [if_neg (by omega), if_neg (by omega)]
  · show s1.prev = _
    rw [h1v]
    unfold hvPrev
    rw [if_pos (by omega), if_neg (by omega), if_neg (by omega), Nat.add_sub_cancel]
  · show s1.far = _
    rw [h1f]
    unfold hvFar
    have hn : j * (16 * q) + 16 * (q - 1) + 16 = (j + 1) * (16 * q) := by
      rw [Nat.add_mul]
      omega
    rw [if_pos (by omega), if_neg (by omega), if_neg (by omega), Nat.add_sub_cancel, hn]
  · refine hvSets_done hq3 hj ?_ hol' h1d hold hraw rfl
    omega

/-- The AVX2 code on rows of `16 * q` columns, `q ≥ 3`: it succeeds, and what it leaves in every column. -/
theorem hvAvx_exact {input : List I16} {q : Nat} (hq : input.length = 128 * q) (hq3 : 3 ≤ q) :
    ∃ out, upsampleHvAvx input (4 * input.length) = .ok out ∧ out.length = 4 * input.length ∧
      ∀ j e x, j < 8 → e < 2 → x < 32 * q →
        out[(2 * j + e) * (2 * (16 * q)) + x]? = some (hvExact input q j e x) := by
  unfold upsampleHvAvx
  rw [if_neg (by omega)]
  dsimp only
  rw [show 4 * input.length / 16 = 32 * q by omega, show input.length / 128 - 1 = q - 1 by omega,
    show 32 * q - (q - 1) * 32 = 32 by omega]
  obtain ⟨s, e, h1, -, -, -, -, -, h5⟩ := Out.fold_inv (f := hvOuter input (32 * q) (q - 1) 32)
    (P := fun j s => s.out.length = 512 * q ∧ s.pos = j * (16 * q) ∧
      s.opos = 2 * j * (2 * (16 * q)) ∧ s.stride = hvStride (16 * q) j ∧
      s.prev = hvPrev input q j 0 ∧ s.far = hvFar input q j 0 ∧
      HvDone input q j 0 s.out) (l := List.range 8)
    (b := { out := List.replicate (4 * input.length) 0, pos := 0, opos := 0, stride := 0,
            prev := tri (input.getD 0 0) (input.getD 0 0),
            far := tri (input.getD 16 0) (input.getD 16 0) }) (k := 0)
    ⟨by rw [List.length_replicate]; omega, by simp, by simp, rfl, rfl, rfl, by
      intro j' e x _ _ _
      exact ⟨fun h => absurd h (by omega), fun _ h => absurd h (by omega)⟩⟩ (by
      intro i b a ha ⟨b1, b2, b3, b4, b5, b6, b7⟩
      obtain ⟨ha', rfl⟩ := List.getElem?_eq_some_iff.1 ha
      rw [List.length_range] at ha'
      rw [List.getElem_range]
      rw [Nat.zero_add] at *
      exact hvOuter_step hq hq3 ha' b1 b2 b3 b4 b5 b6 b7)
  rw [e]
  refine ⟨s.out, rfl, by omega, ?_⟩
  intro j e x hj he hx
  exact (h5 j e x hj he hx).1 (by simpa using hj)

theorem hvExact_interior {input : List I16} {q j e x : Nat} (hi : Interior (2 * (16 * q)) x) :
    hvExact input q j e x = hvAt input (16 * q) j e x := by
  obtain ⟨h1, h2, h3⟩ := hi
  unfold hvExact hvMoved
  rw [if_neg (by omega), if_neg (by omega)]
  unfold hvRaw
  rw [if_pos (by omega), if_neg (by omega), if_neg (by omega)]

/-- The AVX2 code on rows of `16 * q` columns, `q ≥ 3`: it succeeds and does the two interpolations
away from the joints. -/
theorem hvAvx_get {input : List I16} {q : Nat} (hq : input.length = 128 * q) (hq3 : 3 ≤ q) :
    ∃ out, upsampleHvAvx input (4 * input.length) = .ok out ∧ out.length = 4 * input.length ∧
      ∀ j e x, j < 8 → e < 2 → Interior (2 * (16 * q)) x →
        out[(2 * j + e) * (2 * (16 * q)) + x]? = some (hvAt input (16 * q) j e x) := by
  obtain ⟨out, h1, h2, h3⟩ := hvAvx_exact hq hq3
  refine ⟨out, h1, h2, fun j e x hj he hi => ?_⟩
  rw [h3 j e x hj he (by have := hi.1; omega), hvExact_interior hi]

end Zune
