import Verif.Lemmas.Monad
/-! Weakest preconditions for the state monad of the model.

`wp pn dv m Q E s`: running `m` in state `s` ends with `ok` and `Q`, or with an error and `E`;
`pn` and `dv` say whether a panic and running out of fuel are allowed. -/

namespace Zune.M
variable {σ α β : Type}

/-- Weakest precondition. -/
def wp (pn dv : Prop) (m : M σ α) (Q : α → σ → Prop) (E : DecodeErr → σ → Prop) (s : σ) : Prop :=
  match m s with
  | (.ok a, s') => Q a s'
  | (.err e, s') => E e s'
  | (.panic _, _) => pn
  | (.diverge, _) => dv

variable {pn dv : Prop} {Q : α → σ → Prop} {E : DecodeErr → σ → Prop} {s : σ}

theorem wp_mono {m : M σ α} {Q' : α → σ → Prop} {E' : DecodeErr → σ → Prop}
    (h : wp pn dv m Q E s) (hQ : ∀ a s', Q a s' → Q' a s') (hE : ∀ e s', E e s' → E' e s') :
    wp pn dv m Q' E' s := by
  unfold wp at *
  rcases hm : m s with ⟨_ | _ | _ | _, s'⟩ <;> simp only [hm] at *
  · exact hQ _ _ h
  · exact hE _ _ h
  · exact h
  · exact h

theorem wp_weaken {pn' dv' : Prop} {m : M σ α} (h : wp pn dv m Q E s) (hp : pn → pn')
    (hd : dv → dv') : wp pn' dv' m Q E s := by
  unfold wp at *
  rcases hm : m s with ⟨_ | _ | _ | _, s'⟩ <;> simp only [hm] at *
  · exact h
  · exact h
  · exact hp h
  · exact hd h

theorem wp_and {m : M σ α} {Q' : α → σ → Prop} {E' : DecodeErr → σ → Prop}
    (h : wp pn dv m Q E s) (h' : wp pn dv m Q' E' s) :
    wp pn dv m (fun a s => Q a s ∧ Q' a s) (fun e s => E e s ∧ E' e s) s := by
  unfold wp at *
  rcases hm : m s with ⟨_ | _ | _ | _, s'⟩ <;> simp only [hm] at *
  · exact ⟨h, h'⟩
  · exact ⟨h, h'⟩
  · exact h
  · exact h

@[simp] theorem wp_bind {m : M σ α} {f : α → M σ β} {Q : β → σ → Prop} :
    wp pn dv (m >>= f) Q E s ↔ wp pn dv m (fun a s' => wp pn dv (f a) Q E s') E s := by
  unfold wp
  rw [bind_apply]
  rcases m s with ⟨_ | _ | _ | _, s'⟩ <;> rfl

@[simp] theorem wp_mbind {m : M σ α} {f : α → M σ β} {Q : β → σ → Prop} :
    wp pn dv (M.bind m f) Q E s ↔ wp pn dv m (fun a s' => wp pn dv (f a) Q E s') E s :=
  wp_bind

@[simp] theorem wp_pure {a : α} : wp pn dv (Pure.pure a : M σ α) Q E s ↔ Q a s := Iff.rfl
@[simp] theorem wp_mpure {a : α} : wp pn dv (M.pure a : M σ α) Q E s ↔ Q a s := Iff.rfl
@[simp] theorem wp_throw {e : DecodeErr} : wp pn dv (M.throw e : M σ α) Q E s ↔ E e s := Iff.rfl
@[simp] theorem wp_panic {e : Site} : wp pn dv (M.panic e : M σ α) Q E s ↔ pn := Iff.rfl
@[simp] theorem wp_diverge : wp pn dv (M.diverge : M σ α) Q E s ↔ dv := Iff.rfl
@[simp] theorem wp_get {Q : σ → σ → Prop} : wp pn dv (M.get : M σ σ) Q E s ↔ Q s s := Iff.rfl
@[simp] theorem wp_modify {f : σ → σ} {Q : Unit → σ → Prop} :
    wp pn dv (M.modify f) Q E s ↔ Q () (f s) := Iff.rfl
theorem wp_idx {l : List α} {i : Nat} :
    wp pn dv (M.idx l i) Q E s ↔ (∃ a, l[i]? = some a ∧ Q a s) ∨ (l[i]? = none ∧ pn) := by
  unfold wp M.idx
  cases h : l[i]? <;> simp
theorem wp_idx_of {l : List α} {i : Nat} (h : i < l.length) (hq : ∀ a, l[i]? = some a → Q a s) :
    wp pn dv (M.idx l i) Q E s := by
  rw [wp_idx]; left
  exact ⟨l[i], List.getElem?_eq_getElem h, hq _ (List.getElem?_eq_getElem h)⟩
theorem wp_okOr {o : Option α} {e : DecodeErr} :
    wp pn dv (M.okOr o e) Q E s ↔ (∀ a, o = some a → Q a s) ∧ (o = none → E e s) := by
  unfold wp M.okOr
  cases o <;> simp
theorem wp_unwrap {o : Option α} :
    wp pn dv (M.unwrap o) Q E s ↔ (∀ a, o = some a → Q a s) ∧ (o = none → pn) := by
  unfold wp M.unwrap
  cases o <;> simp
theorem wp_ofOut {o : Out α} :
    wp pn dv (M.ofOut o) Q E s ↔ (∀ a, o = .ok a → Q a s) ∧ (∀ e, o = .err e → E e s) ∧
      (∀ p, o = .panic p → pn) ∧ (o = .diverge → dv) := by
  unfold wp M.ofOut
  cases o <;> simp
theorem wp_failIf {c : Bool} {e : DecodeErr} {Q : Unit → σ → Prop} :
    wp pn dv (M.failIf c e) Q E s ↔ (c = false → Q () s) ∧ (c = true → E e s) := by
  unfold wp M.failIf
  cases c <;> simp
theorem wp_ite {c : Prop} [Decidable c] {m n : M σ α} :
    wp pn dv (if c then m else n) Q E s ↔
      (c → wp pn dv m Q E s) ∧ (¬ c → wp pn dv n Q E s) := by
  by_cases h : c <;> simp [h]
theorem wp_ite_of {c : Prop} [Decidable c] {m n : M σ α}
    (h1 : c → wp pn dv m Q E s) (h2 : ¬ c → wp pn dv n Q E s) :
    wp pn dv (if c then m else n) Q E s := wp_ite.2 ⟨h1, h2⟩

/-- A loop keeps an invariant. -/
theorem wp_foldM {γ : Type} {l : List α} {b : γ} {f : γ → α → M σ γ} (I : γ → σ → Prop)
    (h0 : I b s) (hf : ∀ b a s, a ∈ l → I b s → wp pn dv (f b a) I E s) :
    wp pn dv (M.foldM l b f) I E s := by
  induction l generalizing b s with
  | nil => exact h0
  | cons a l ih =>
    unfold M.foldM
    rw [wp_mbind]
    refine wp_mono (hf b a s (by simp) h0) ?_ (fun _ _ h => h)
    intro b' s' h
    exact ih h (fun b a s ha => hf b a s (by simp [ha]))

/-- Reading off a result. -/
theorem wp_ok {m : M σ α} {a : α} {s' : σ} (h : wp pn dv m Q E s) (e : m s = (.ok a, s')) :
    Q a s' := by
  unfold wp at h; rw [e] at h; exact h
theorem wp_err {m : M σ α} {e : DecodeErr} {s' : σ} (h : wp pn dv m Q E s)
    (he : m s = (.err e, s')) : E e s' := by
  unfold wp at h; rw [he] at h; exact h
theorem wp_of_ok {m : M σ α} {a : α} {s' : σ} (e : m s = (.ok a, s')) (h : Q a s') :
    wp pn dv m Q E s := by
  unfold wp; rw [e]; exact h

/-- Neither a panic nor divergence. -/
def Returns (o : Out α) : Prop := (∃ a, o = .ok a) ∨ ∃ e, o = .err e

theorem wp_returns {m : M σ α} (h : wp False False m Q E s) : Returns (m s).1 := by
  unfold wp at h
  rcases hm : m s with ⟨_ | _ | _ | _, s'⟩ <;> rw [hm] at h
  · exact Or.inl ⟨_, rfl⟩
  · exact Or.inr ⟨_, rfl⟩
  · exact h.elim
  · exact h.elim

end Zune.M

/-- The value of an `Ok`. -/
def Zune.Out.toOption {α : Type} : Zune.Out α → Option α
  | .ok a => some a
  | _ => none
