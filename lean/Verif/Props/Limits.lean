import Verif.Lemmas.Relax
import Verif.Props.Decode
/-! # Properties C07, C08: options that only reject -/

namespace Zune
open Zune.Spec

theorem Relax.decodeBuffer (r : Relax) {d d' : Decoder} {buf v : List UInt8}
    (h : d.decodeBuffer buf = (.ok v, d')) : (r.dec d).decodeBuffer buf = (.ok v, r.dec d') := by
  unfold Decoder.decodeBuffer at *
  rcases hm : decodeInternal ⟨d, buf⟩ with ⟨x, s⟩
  rw [hm] at h
  cases h
  have := Keep.decodeInternal (r := r) _ _ _ hm
  dsimp only at *
  rw [this]

theorem Relax.readHeaders (r : Relax) {d d' : Decoder} {buf : List UInt8}
    (h : d.readHeaders buf = (.ok (), d')) : (r.dec d).readHeaders buf = (.ok (), r.dec d') := by
  unfold Decoder.readHeaders at *
  rcases hm : decodeHeaders ⟨d, buf⟩ with ⟨x, s⟩
  rw [hm] at h
  cases h
  have := Keep.decodeHeaders (r := r) _ _ _ hm
  dsimp only at *
  rw [this]

/-! ### C07 -/

/-- The decoder with strict mode turned off. -/
def Spec.lenient (d : Decoder) : Decoder := { d with options := d.options.setStrictMode false }

/-- **C07.** For every state of the decoder: what succeeds in strict mode succeeds without it, with the
same bytes, and leaves the same decoder up to the option itself. -/
theorem c07_strict_mode (d d' : Decoder) (buf : List UInt8) :
    (∀ v, d.decodeBuffer buf = (.ok v, d') →
      (lenient d).decodeBuffer buf = (.ok v, lenient d')) ∧
    (d.readHeaders buf = (.ok (), d') → (lenient d).readHeaders buf = (.ok (), lenient d')) := by
  have e : ∀ d, lenient d = (Relax.mk id id id Nat.le_refl Nat.le_refl Nat.le_refl false id
      (fun _ => none) (fun _ => none)).dec d := by
    intro d
    unfold lenient Options.setStrictMode Relax.dec Relax.opts
    simp [fillTables_none]
  rw [e, e]
  exact ⟨fun v h => Relax.decodeBuffer _ h, fun h => Relax.readHeaders _ h⟩

/-- The converse fails: strict mode does reject files, here for four bytes between two segments. -/
def Spec.garbageFile : List UInt8 :=
  tinyFile.take 2 ++ [0xFF, 0xFE, 0, 2, 0, 0, 0, 0] ++ tinyFile.drop 2

theorem c07_rejects :
    ((Decoder.newWithOptions ⟨false, false⟩ (Options.new.setStrictMode true)).decodeBuffer tinyFile).1
      = .ok (List.replicate 64 128) ∧
    ((Decoder.newWithOptions ⟨false, false⟩ (Options.new.setStrictMode true)).decodeBuffer
      garbageFile).1 = .err .formatStatic ∧
    ((Decoder.newWithOptions ⟨false, false⟩ Options.new).decodeBuffer garbageFile).1
      = .ok (List.replicate 64 128) := by
  decide +kernel

/-! ### C08 -/

/-- The decoder with each limit raised to the given value if that is larger. -/
def Spec.raiseLimits (w h n : Nat) (d : Decoder) : Decoder :=
  { d with options := ((d.options.setMaxWidth (max d.options.getMaxWidth w)).setMaxHeight
      (max d.options.getMaxHeight h)).setMaxScans (max d.options.getMaxScans n) }

/-- **C08.** For every state of the decoder: raising the limits keeps what succeeded, with the same
bytes, and leaves the same decoder up to the limits. -/
theorem c08_limits (w h n : Nat) (d d' : Decoder) (buf : List UInt8) :
    (∀ v, d.decodeBuffer buf = (.ok v, d') →
      (raiseLimits w h n d).decodeBuffer buf = (.ok v, raiseLimits w h n d')) ∧
    (d.readHeaders buf = (.ok (), d') →
      (raiseLimits w h n d).readHeaders buf = (.ok (), raiseLimits w h n d')) := by
  have e : ∀ d, raiseLimits w h n d = (Relax.mk (max · w) (max · h) (max · n)
      (fun _ => Nat.le_max_left _ _) (fun _ => Nat.le_max_left _ _) (fun _ => Nat.le_max_left _ _)
      true id (fun _ => none) (fun _ => none)).dec d := by
    intro d
    unfold raiseLimits Options.setMaxWidth Options.setMaxHeight Options.setMaxScans
      Options.getMaxWidth Options.getMaxHeight Options.getMaxScans Relax.dec Relax.opts
    simp [fillTables_none]
  rw [e, e]
  exact ⟨fun v h => Relax.decodeBuffer _ h, fun h => Relax.readHeaders _ h⟩

/-- A new decoder with larger limits is the new decoder with raised limits. -/
theorem c08_new (cpu : Cpu) (o : Options) (w h n : Nat) (hw : o.getMaxWidth ≤ w)
    (hh : o.getMaxHeight ≤ h) (hn : o.getMaxScans ≤ n) :
    raiseLimits w h n (Decoder.newWithOptions cpu o) =
      Decoder.newWithOptions cpu (((o.setMaxWidth w).setMaxHeight h).setMaxScans n) := by
  have e1 : max o.getMaxWidth w = w := Nat.max_eq_right hw
  have e2 : max o.getMaxHeight h = h := Nat.max_eq_right hh
  have e3 : max o.getMaxScans n = n := Nat.max_eq_right hn
  show ({ Decoder.newWithOptions cpu o with options := _ } : Decoder) = _
  unfold Decoder.newWithOptions
  dsimp only
  rw [e1, e2, e3]
  rfl

/-- The limits matter: the file of 8 x 8 samples is refused with a limit of 7. -/
theorem c08_rejects :
    ((Decoder.newWithOptions ⟨false, false⟩ (Options.new.setMaxWidth 7)).decodeBuffer tinyFile).1
      = .err .format ∧
    ((Decoder.newWithOptions ⟨false, false⟩ (Options.new.setMaxWidth 8)).decodeBuffer tinyFile).1
      = .ok (List.replicate 64 128) := by
  decide +kernel

end Zune
