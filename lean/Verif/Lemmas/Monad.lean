import Verif.Model.Basic
/-! Evaluation lemmas for the state monad. -/

namespace Zune.M
variable {σ α β : Type}

theorem bind_apply (m : M σ α) (f : α → M σ β) (s : σ) :
    (m >>= f) s = match m s with
      | (.ok a, s') => f a s'
      | (.err e, s') => (.err e, s')
      | (.panic p, s') => (.panic p, s')
      | (.diverge, s') => (.diverge, s') := rfl

theorem bind_ok {m : M σ α} {f : α → M σ β} {s s' : σ} {a : α} (h : m s = (.ok a, s')) :
    (m >>= f) s = f a s' := by rw [bind_apply, h]
theorem bind_err {m : M σ α} {f : α → M σ β} {s s' : σ} {e : DecodeErr} (h : m s = (.err e, s')) :
    (m >>= f) s = (.err e, s') := by rw [bind_apply, h]
theorem bind_panic {m : M σ α} {f : α → M σ β} {s s' : σ} {e : Site} (h : m s = (.panic e, s')) :
    (m >>= f) s = (.panic e, s') := by rw [bind_apply, h]
theorem bind_diverge {m : M σ α} {f : α → M σ β} {s s' : σ} (h : m s = (.diverge, s')) :
    (m >>= f) s = (.diverge, s') := by rw [bind_apply, h]

@[simp] theorem pure_apply (a : α) (s : σ) : (Pure.pure a : M σ α) s = (.ok a, s) := rfl
@[simp] theorem mpure_apply (a : α) (s : σ) : (M.pure a : M σ α) s = (.ok a, s) := rfl
@[simp] theorem throw_apply (e : DecodeErr) (s : σ) : (M.throw e : M σ α) s = (.err e, s) := rfl
@[simp] theorem panic_apply (e : Site) (s : σ) : (M.panic e : M σ α) s = (.panic e, s) := rfl
@[simp] theorem diverge_apply (s : σ) : (M.diverge : M σ α) s = (.diverge, s) := rfl
@[simp] theorem get_apply (s : σ) : (M.get : M σ σ) s = (.ok s, s) := rfl
@[simp] theorem modify_apply (f : σ → σ) (s : σ) : M.modify f s = (.ok (), f s) := rfl
theorem idx_some {l : List α} {i : Nat} {a : α} (h : l[i]? = some a) (s : σ) :
    M.idx l i s = (.ok a, s) := by simp [M.idx, h]
theorem idx_none {l : List α} {i : Nat} (h : l[i]? = none) (s : σ) :
    M.idx l i s = (.panic .index, s) := by simp [M.idx, h]

end Zune.M
