import Verif.Lemmas.Slice
import Verif.Props.Color
/-! Writing the rows of a strip. -/

namespace Zune
variable {α γ : Type}

theorem drop_writeAt_of_le {l xs : List α} {pos k : Nat} (h : pos + xs.length ≤ l.length)
    (hk : pos + xs.length ≤ k) : (writeAt l pos xs).drop k = l.drop k := by
  apply List.ext_getElem?
  intro i
  rw [List.getElem?_drop, List.getElem?_drop, getElem?_writeAt h, if_neg (by omega)]

theorem writeAt_writeAt {l a b : List α} {p : Nat} (h : p + a.length + b.length ≤ l.length) :
    writeAt (writeAt l p a) (p + a.length) b = writeAt l p (a ++ b) := by
  have h1 : p + a.length ≤ l.length := by omega
  have h2 : p + a.length + b.length ≤ (writeAt l p a).length := by rw [length_writeAt h1]; omega
  apply List.ext_getElem?
  intro i
  rw [getElem?_writeAt h2, getElem?_writeAt h1,
    getElem?_writeAt (by rw [List.length_append]; omega), List.length_append]
  by_cases c1 : p + a.length ≤ i ∧ i < p + a.length + b.length
  · rw [if_pos c1, if_pos (by omega), List.getElem?_append_right (by omega)]
    congr 1
    omega
  · rw [if_neg c1]
    by_cases c2 : p ≤ i ∧ i < p + a.length
    · rw [if_pos c2, if_pos (by omega), List.getElem?_append_left (by omega)]
    · rw [if_neg c2, if_neg (by omega)]

/-- A loop that replaces consecutive rows of `w` elements, each by a function of the old row. -/
theorem fold_rows {f : List α → γ × Nat → Out (List α)} {items : List γ} {w : Nat}
    {row : γ → List α → List α} {out : List α} (hn : items.length * w ≤ out.length)
    (hr : ∀ g ∈ items, ∀ old : List α, old.length = w → (row g old).length = w)
    (hf : ∀ i g o, items[i]? = some g → o.length = out.length →
      (o.drop (i * w)).take w = (out.drop (i * w)).take w →
      f o (g, i) = .ok (writeAt o (i * w) (row g ((out.drop (i * w)).take w)))) :
    ∃ r, Out.fold f out items.zipIdx = .ok r ∧ r.length = out.length ∧
      (∀ i g j, items[i]? = some g → j < w →
        r[i * w + j]? = (row g ((out.drop (i * w)).take w))[j]?) ∧
      ∀ k, items.length * w ≤ k → r[k]? = out[k]? := by
  have key := Out.fold_inv (f := f) (l := items.zipIdx) (b := out) (k := 0)
    (P := fun k r => r.length = out.length ∧
      (∀ i g j, i < k → items[i]? = some g → j < w →
        r[i * w + j]? = (row g ((out.drop (i * w)).take w))[j]?) ∧
      ∀ x, k * w ≤ x → r[x]? = out[x]?)
    ⟨rfl, fun i g j h => by omega, fun x _ => rfl⟩ ?_
  · obtain ⟨r, h1, h2, h3, h4⟩ := key
    rw [List.length_zipIdx, Nat.zero_add] at h3 h4
    refine ⟨r, h1, h2, fun i g j hi hj => h3 i g j ?_ hi hj, h4⟩
    exact (List.getElem?_eq_some_iff.1 hi).1
  · intro i b a ha ⟨p1, p2, p3⟩
    rw [Nat.zero_add] at *
    rw [List.getElem?_zipIdx] at ha
    cases hg : items[i]? with
    | none => rw [hg] at ha; cases ha
    | some g =>
      rw [hg] at ha
      injection ha with ha
      rw [Nat.zero_add] at ha
      subst ha
      have hi : i < items.length := (List.getElem?_eq_some_iff.1 hg).1
      have hm : (i + 1) * w ≤ items.length * w := Nat.mul_le_mul_right _ hi
      rw [Nat.add_one_mul i] at hm
      have hl : (row g ((out.drop (i * w)).take w)).length = w :=
        hr g (List.mem_of_getElem? hg) _ (by rw [List.length_take, List.length_drop]; omega)
      have hd : (b.drop (i * w)).take w = (out.drop (i * w)).take w := by
        apply List.ext_getElem?
        intro x
        by_cases hx : x < w
        · rw [List.getElem?_take_of_lt hx, List.getElem?_take_of_lt hx, List.getElem?_drop,
            List.getElem?_drop, p3 _ (by omega)]
        · rw [List.getElem?_eq_none (by rw [List.length_take]; omega),
            List.getElem?_eq_none (by rw [List.length_take]; omega)]
      refine ⟨_, hf i g b hg p1 hd, ?_, ?_, ?_⟩
      · rw [length_writeAt (by rw [hl, p1]; omega), p1]
      · intro i' g' j hi' hg' hj
        rw [getElem?_writeAt (by rw [hl, p1]; omega), hl]
        by_cases e : i' = i
        · subst e
          rw [hg] at hg'
          cases hg'
          rw [if_pos (by omega)]
          congr 1
          omega
        · have : (i' + 1) * w ≤ i * w := Nat.mul_le_mul_right _ (by omega)
          rw [Nat.add_one_mul i'] at this
          rw [if_neg (by omega)]
          exact p2 i' g' j (by omega) hg' hj
      · intro x hx
        rw [Nat.add_one_mul i] at hx
        rw [getElem?_writeAt (by rw [hl, p1]; omega), hl, if_neg (by omega)]
        exact p3 x (by omega)

/-- Three planes cut into rows. -/
theorem getElem?_zip3_chunks {n rows : Nat} (hn : 0 < n) {y cb cr : List α}
    (hy : y.length = rows * n) (hb : cb.length = rows * n) (hr : cr.length = rows * n) :
    ((chunksExact n y).zip ((chunksExact n cb).zip (chunksExact n cr))).length = rows ∧
    ∀ i, i < rows → ((chunksExact n y).zip ((chunksExact n cb).zip (chunksExact n cr)))[i]? =
      some ((y.drop (i * n)).take n, (cb.drop (i * n)).take n, (cr.drop (i * n)).take n) := by
  have e : rows * n / n = rows := Nat.mul_div_cancel _ hn
  constructor
  · rw [List.length_zip, List.length_zip, length_chunksExact, length_chunksExact,
      length_chunksExact, hy, hb, hr, e]
    simp
  · intro i hi
    rw [List.getElem?_zip_eq_some.2]
    refine ⟨getElem?_chunksExact (by rw [hy, e]; exact hi), ?_⟩
    rw [List.getElem?_zip_eq_some.2]
    exact ⟨getElem?_chunksExact (by rw [hb, e]; exact hi),
      getElem?_chunksExact (by rw [hr, e]; exact hi)⟩

theorem length_rowOf {n rows i : Nat} {y : List α} (hy : y.length = rows * n) (hi : i < rows) :
    ((y.drop (i * n)).take n).length = n := by
  have := Nat.mul_le_mul_right n (show i + 1 ≤ rows by omega)
  rw [Nat.add_one_mul i] at this
  rw [List.length_take, List.length_drop]
  omega

theorem getElem?_rowOf {n i j : Nat} {y : List α} (hj : j < n) :
    ((y.drop (i * n)).take n)[j]? = y[i * n + j]? := by
  rw [List.getElem?_take_of_lt hj, List.getElem?_drop]

end Zune
