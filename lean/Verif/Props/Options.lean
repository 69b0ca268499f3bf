import Verif.Model.State
/-!
# Property C46: options
-/

namespace Zune

/-- What can be observed of an option set. -/
def Spec.observe (o : Options) : Bool × ColorSpace × Nat × Nat × Nat × Nat × Bool :=
  (o.getUseUnsafe, o.getOutColorspace, o.getThreads, o.getMaxWidth, o.getMaxHeight, o.getMaxScans,
    o.getStrictMode)

open Spec

/-- **C46.** Every setter changes exactly its own observation. -/
theorem c46_options (o : Options) (u st : Bool) (c : ColorSpace) (t w h m : Nat)
    (hobs : observe o = (u, c, t, w, h, m, st)) :
    (∀ x, observe (o.setUseUnsafe x) = (x, c, t, w, h, m, st)) ∧
    (∀ x, observe (o.setOutColorspace x) = (u, x, t, w, h, m, st)) ∧
    (∀ x, observe (o.setNumThreads x) = (u, c, x, w, h, m, st)) ∧
    (∀ x, observe (o.setMaxWidth x) = (u, c, t, x, h, m, st)) ∧
    (∀ x, observe (o.setMaxHeight x) = (u, c, t, w, x, m, st)) ∧
    (∀ x, observe (o.setMaxScans x) = (u, c, t, w, h, x, st)) ∧
    (∀ x, observe (o.setStrictMode x) = (u, c, t, w, h, m, x)) := by
  obtain ⟨a, b, d, e, f, g, i⟩ := o
  simp only [observe, Options.getUseUnsafe, Options.getOutColorspace, Options.getThreads,
    Options.getMaxWidth, Options.getMaxHeight, Options.getMaxScans, Options.getStrictMode,
    Prod.mk.injEq] at hobs
  obtain ⟨rfl, rfl, rfl, rfl, rfl, rfl, rfl⟩ := hobs
  exact ⟨fun _ => rfl, fun _ => rfl, fun _ => rfl, fun _ => rfl, fun _ => rfl, fun _ => rfl,
    fun _ => rfl⟩

/-- Two option sets that cannot be told apart are equal, so the observations are complete. -/
theorem c46_observe_complete (o o' : Options) (h : observe o = observe o') : o = o' := by
  obtain ⟨a, b, d, e, f, g, i⟩ := o
  obtain ⟨a', b', d', e', f', g', i'⟩ := o'
  simp only [observe, Options.getUseUnsafe, Options.getOutColorspace, Options.getThreads,
    Options.getMaxWidth, Options.getMaxHeight, Options.getMaxScans, Options.getStrictMode,
    Prod.mk.injEq] at h
  obtain ⟨rfl, rfl, rfl, rfl, rfl, rfl, rfl⟩ := h
  rfl

/-- The defaults of the documentation. -/
example : observe Options.new = (true, .rgb, 4, 16384, 16384, 64, false) := rfl

/-- `set_limits` changes the two limits of the decoder's options and nothing else. -/
theorem c46_limits (d : Decoder) (w h : Nat) :
    (d.setLimits w h).options.getMaxWidth = w ∧ (d.setLimits w h).options.getMaxHeight = h ∧
    { d.setLimits w h with options := d.options } = d ∧
    (∀ w' h', (d.setLimits w h).setLimits w' h' = d.setLimits w' h') :=
  ⟨rfl, rfl, rfl, fun _ _ => rfl⟩

/-- **C46, thread count (partial).** Zero threads are rejected and the decoder is unchanged; a
count below 2^32 is accepted and read back, and nothing else changes. Missing: for larger counts the
value is truncated, and multiples of 2^32 panic, see `c46_threads_false`. -/
theorem c46_threads_partial (d : Decoder) (n : Nat) (hn : n < 2 ^ 32) :
    (n = 0 → d.setNumThreads n = (.err .formatStatic, d)) ∧
    (n ≠ 0 → ∃ d', d.setNumThreads n = (.ok (), d') ∧ d'.options.getThreads = n ∧
      { d' with options := d'.options.setNumThreads d.options.getThreads } = d) := by
  constructor
  · rintro rfl; rfl
  · intro h0
    have hm : n % 2 ^ 32 = n := Nat.mod_eq_of_lt hn
    refine ⟨{ d with options := d.options.setNumThreads n }, ?_, ?_, ?_⟩
    · simp only [Decoder.setNumThreads, hm, if_neg h0]
    · rfl
    · rfl

/-- **C46 is false for the thread count in general** (64 bit `usize`): a non-zero count panics. -/
theorem c46_threads_false (d : Decoder) : d.setNumThreads (2 ^ 32) = (.panic .unwrap, d) := rfl

end Zune
