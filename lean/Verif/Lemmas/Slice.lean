import Verif.Model.Slices
import Mathlib.Tactic.Linarith
/-! Slices: writes, chunks, folds. -/

namespace Zune
variable {α β : Type}

theorem length_writeAt {l xs : List α} {pos : Nat} (h : pos + xs.length ≤ l.length) :
    (writeAt l pos xs).length = l.length := by
  unfold writeAt
  simp only [List.length_append, List.length_take, List.length_drop]
  omega

theorem getElem?_writeAt {l xs : List α} {pos : Nat} (h : pos + xs.length ≤ l.length) (i : Nat) :
    (writeAt l pos xs)[i]? = if pos ≤ i ∧ i < pos + xs.length then xs[i - pos]? else l[i]? := by
  unfold writeAt
  rw [List.append_assoc]
  have ht : (l.take pos).length = pos := by rw [List.length_take]; omega
  by_cases h1 : i < pos
  · rw [List.getElem?_append_left (by omega), if_neg (by omega), List.getElem?_take, if_pos h1]
  · rw [List.getElem?_append_right (by omega), ht]
    by_cases h2 : i < pos + xs.length
    · rw [if_pos ⟨by omega, h2⟩, List.getElem?_append_left (by omega)]
    · rw [if_neg (by omega), List.getElem?_append_right (by omega), List.getElem?_drop]
      congr 1
      omega

theorem mem_writeAt {l xs : List α} {pos : Nat} {x : α} (h : x ∈ writeAt l pos xs) :
    x ∈ l ∨ x ∈ xs := by
  unfold writeAt at h
  simp only [List.mem_append] at h
  rcases h with (h | h) | h
  · exact .inl (List.mem_of_mem_take h)
  · exact .inr h
  · exact .inl (List.mem_of_mem_drop h)

theorem writeChecked_ok {l xs : List α} {pos : Nat} (h : pos + xs.length ≤ l.length) :
    writeChecked l pos xs = .ok (writeAt l pos xs) := by
  unfold writeChecked
  rw [if_pos h]

theorem writeChecked_inv {l xs l' : List α} {pos : Nat} (h : writeChecked l pos xs = .ok l') :
    pos + xs.length ≤ l.length ∧ l' = writeAt l pos xs := by
  unfold writeChecked at h
  split at h
  · cases h; exact ⟨by assumption, rfl⟩
  · cases h

theorem length_chunksExact (n : Nat) (l : List α) : (chunksExact n l).length = l.length / n := by
  unfold chunksExact
  simp

theorem getElem?_chunksExact {n : Nat} {l : List α} {i : Nat} (h : i < l.length / n) :
    (chunksExact n l)[i]? = some ((l.drop (i * n)).take n) := by
  unfold chunksExact
  rw [List.getElem?_map, List.getElem?_range h]
  rfl

theorem mem_chunksExact {n : Nat} {l c : List α} (h : c ∈ chunksExact n l) :
    ∃ i, i < l.length / n ∧ c = (l.drop (i * n)).take n := by
  unfold chunksExact at h
  simp only [List.mem_map, List.mem_range] at h
  obtain ⟨i, h1, h2⟩ := h
  exact ⟨i, h1, h2.symm⟩

theorem mul_le_of_lt_div {n m i : Nat} (h : i < m / n) : (i + 1) * n ≤ m := by
  have h1 : (i + 1) * n ≤ (m / n) * n := Nat.mul_le_mul_right n (by omega)
  have h2 : (m / n) * n ≤ m := Nat.div_mul_le_self m n
  omega

theorem chunk_length {n : Nat} {l c : List α} (h : c ∈ chunksExact n l) : c.length = n := by
  obtain ⟨i, hi, rfl⟩ := mem_chunksExact h
  have := mul_le_of_lt_div hi
  rw [Nat.add_mul] at this
  rw [List.length_take, List.length_drop]
  omega

/-- A fold that keeps an invariant depending on the number of steps. -/
theorem Out.fold_inv {f : β → α → Out β} {P : Nat → β → Prop} :
    ∀ {l : List α} {b : β} {k : Nat}, P k b →
    (∀ i b a, l[i]? = some a → P (k + i) b → ∃ b', f b a = .ok b' ∧ P (k + i + 1) b') →
    ∃ b', Out.fold f b l = .ok b' ∧ P (k + l.length) b'
  | [], b, k, h, _ => ⟨b, rfl, h⟩
  | a :: l, b, k, h, step => by
    obtain ⟨b1, e1, h1⟩ := step 0 b a rfl h
    obtain ⟨b2, e2, h2⟩ := Out.fold_inv (f := f) (P := P) (l := l) (b := b1) (k := k + 1) h1
      (fun i b a' ha hp => by
        have := step (i + 1) b a' (by simpa using ha) (by rwa [show k + (i + 1) = k + 1 + i by omega])
        rwa [show k + (i + 1) + 1 = k + 1 + i + 1 by omega] at this)
    refine ⟨b2, ?_, by rwa [List.length_cons, show k + (l.length + 1) = k + 1 + l.length by omega]⟩
    show (f b a).bind _ = _
    rw [e1]
    exact e2

/-- An invariant of a fold that succeeds. -/
theorem Out.fold_ok {f : β → α → Out β} {P : β → Prop} (hf : ∀ b a b', P b → f b a = .ok b' → P b') :
    ∀ {l : List α} {b b' : β}, P b → Out.fold f b l = .ok b' → P b'
  | [], b, b', h, e => by cases e; exact h
  | a :: l, b, b', h, e => by
    have e : (f b a).bind (fun b' => Out.fold f b' l) = .ok b' := e
    cases h1 : f b a with
    | ok b1 =>
      rw [h1] at e
      exact Out.fold_ok hf (hf _ _ _ h h1) e
    | err x => rw [h1] at e; cases e
    | panic x => rw [h1] at e; cases e
    | diverge => rw [h1] at e; cases e

/-- A property of the outcome of a fold. -/
theorem Out.fold_ne {f : β → α → Out β} {x : Out β} (hx : ∀ b, x ≠ .ok b) {P : β → Prop}
    (hf : ∀ b a, P b → f b a ≠ x ∧ ∀ b', f b a = .ok b' → P b') :
    ∀ {l : List α} {b : β}, P b → Out.fold f b l ≠ x
  | [], b, _ => fun e => hx b e.symm
  | a :: l, b, h => by
    show (f b a).bind (fun b' => Out.fold f b' l) ≠ x
    obtain ⟨h0, h1⟩ := hf b a h
    cases h2 : f b a with
    | ok b1 => exact Out.fold_ne hx hf (h1 b1 h2)
    | err e => rw [h2] at h0; exact h0
    | panic e => rw [h2] at h0; exact h0
    | diverge => rw [h2] at h0; exact h0

theorem Out.bind_ok {o : Out α} {f : α → Out β} {b : β} (h : o.bind f = .ok b) :
    ∃ a, o = .ok a ∧ f a = .ok b := by
  cases o with
  | ok a => exact ⟨a, rfl, h⟩
  | err e => cases h
  | panic e => cases h
  | diverge => cases h

theorem Out.collect_ok_iff : ∀ {l : List (Out α)} {r : List α},
    Out.collect l = .ok r ↔ l = r.map .ok
  | [], r => by
    show Out.ok [] = .ok r ↔ _
    constructor
    · intro h; cases h; rfl
    · intro h
      cases r with
      | nil => rfl
      | cons => simp at h
  | o :: l, r => by
    constructor
    · intro h
      have h : (o.bind fun a => (Out.collect l).bind fun as => .ok (a :: as)) = .ok r := h
      obtain ⟨a, h1, h2⟩ := Out.bind_ok h
      obtain ⟨as, h3, h4⟩ := Out.bind_ok h2
      cases h4
      rw [h1, Out.collect_ok_iff.1 h3]
      rfl
    · intro h
      cases r with
      | nil => simp at h
      | cons a as =>
        simp only [List.map_cons, List.cons.injEq] at h
        show (o.bind fun a => (Out.collect l).bind fun as => .ok (a :: as)) = _
        rw [h.1, Out.collect_ok_iff.2 h.2]
        rfl

theorem Out.collect_map_ok {f : β → Out α} {g : β → α} {l : List β} (h : ∀ b ∈ l, f b = .ok (g b)) :
    Out.collect (l.map f) = .ok (l.map g) := by
  rw [Out.collect_ok_iff, List.map_map]
  exact List.map_congr_left h

theorem length_flatten_const {n : Nat} : ∀ {ls : List (List α)}, (∀ l ∈ ls, l.length = n) →
    ls.flatten.length = ls.length * n
  | [], _ => by simp
  | l :: ls, h => by
    rw [List.flatten_cons, List.length_append, h l (by simp),
      length_flatten_const fun l hl => h l (by simp [hl]), List.length_cons, Nat.add_mul]
    omega

/-- Entry `j` of part `i` when all parts have length `n`. -/
theorem getElem?_flatten_const {n : Nat} : ∀ {ls : List (List α)}, (∀ l ∈ ls, l.length = n) →
    ∀ {i j : Nat}, j < n → ls.flatten[i * n + j]? = ls[i]?.bind (·[j]?)
  | [], _, i, j, _ => by simp
  | l :: ls, h, i, j, hj => by
    rw [List.flatten_cons]
    have hl := h l (by simp)
    cases i with
    | zero =>
      rw [List.getElem?_append_left (by omega)]
      simp
    | succ i =>
      rw [List.getElem?_append_right (by rw [hl, Nat.add_mul]; omega), hl,
        show (i + 1) * n + j - n = i * n + j by rw [Nat.add_mul]; omega,
        getElem?_flatten_const (fun l hl => h l (by simp [hl])) hj]
      simp

theorem fit_self {n : Nat} {z : α} {l : List α} (h : l.length = n) : fit n z l = l := by
  unfold fit
  rw [h, Nat.sub_self, List.replicate_zero, List.append_nil, ← h, List.take_length]

theorem length_fit (n : Nat) (z : α) (l : List α) : (fit n z l).length = n := by
  unfold fit
  rw [List.length_take, List.length_append, List.length_replicate]
  omega

theorem mem_fit {n : Nat} {z x : α} {l : List α} (h : x ∈ fit n z l) : x ∈ l ∨ x = z := by
  unfold fit at h
  rcases List.mem_append.1 (List.mem_of_mem_take h) with h | h
  · exact .inl h
  · exact .inr (List.eq_of_mem_replicate h)

/-- Row and column are determined by the position. -/
theorem row_col {n r c r' c' : Nat} (hc : c < n) (hc' : c' < n) (h : r * n + c = r' * n + c') :
    r = r' ∧ c = c' := by
  have h1 : (r * n + c) / n = r := by
    rw [Nat.add_comm, Nat.add_mul_div_right _ _ (by omega), Nat.div_eq_of_lt hc]; omega
  have h2 : (r' * n + c') / n = r' := by
    rw [Nat.add_comm, Nat.add_mul_div_right _ _ (by omega), Nat.div_eq_of_lt hc']; omega
  have : r = r' := by rw [← h1, ← h2, h]
  subst this
  exact ⟨rfl, by omega⟩

end Zune
