/-!
# Basic vocabulary of the model

Outcomes, the state monad used by the whole model, errors, colour spaces and decoder options.
-/

namespace Zune

/-- `i16` values, two's complement, wrapping. -/
abbrev I16 := BitVec 16
/-- `i32` values, two's complement, wrapping. -/
abbrev I32 := BitVec 32

/-- `errors.rs:16-43` (`DecodeErrors`). The message texts are not modelled, only the variant and,
for `IllegalMagicBytes`, its number. -/
inductive DecodeErr where
  | format | formatStatic | illegalMagic (n : Nat) | huffmanDecode | zeroError | dqt | sos | sof
  | unsupported | mcu | exhausted | largeDimensions
  deriving DecidableEq, Repr

/-- Kinds of Rust panics that the modelled code can run into. -/
inductive Site where
  /-- slice or array index out of range -/
  | index
  /-- `unwrap`/`expect` on `None` or `Err`, failed `assert!` -/
  | unwrap
  /-- division by zero, chunk size zero -/
  | zero
  /-- `copy_from_slice` with different lengths -/
  | copy
  /-- a job of the thread pool panicked (`scoped_threadpool` re-panics when joining) -/
  | worker
  /-- an unchecked load or store would leave its slice: undefined behaviour, not a panic -/
  | unsound
  deriving DecidableEq, Repr

/-- Outcome of a modelled computation. `diverge` is returned when the fuel of a modelled loop is
used up; it stands for "still running". -/
inductive Out (α : Type) where
  | ok (a : α)
  | err (e : DecodeErr)
  | panic (site : Site)
  | diverge
  deriving DecidableEq, Repr

namespace Out
/-- The computation returned `Ok`. -/
def isOk {α} : Out α → Bool
  | ok _ => true
  | _ => false
/-- The computation returned `Err`. -/
def isErr {α} : Out α → Bool
  | err _ => true
  | _ => false
/-- The computation panicked. -/
def isPanic {α} : Out α → Bool
  | panic _ => true
  | _ => false
/-- The computation left a slice by an unchecked access. -/
def isUnsound {α} : Out α → Bool
  | panic .unsound => true
  | _ => false
/-- Sequencing of outcomes (the `?` operator, and unwinding). -/
def bind {α β} : Out α → (α → Out β) → Out β
  | ok a, f => f a
  | err e, _ => err e
  | panic s, _ => panic s
  | diverge, _ => diverge
/-- Apply a function to the value of an `ok`. -/
def map {α β} (f : α → β) : Out α → Out β
  | ok a => ok (f a)
  | err e => err e
  | panic s => panic s
  | diverge => diverge
end Out

/-- A Rust function with `&mut σ` that returns a `Result<α, DecodeErrors>` or panics. The state is
kept whatever the outcome, as in Rust. -/
def M (σ α : Type) := σ → Out α × σ

namespace M
variable {σ α β : Type}

/-- Return a value. -/
@[inline] def pure (a : α) : M σ α := fun s => (.ok a, s)
/-- Run `m`, stop on anything but `ok`. -/
@[inline] def bind (m : M σ α) (f : α → M σ β) : M σ β := fun s =>
  match m s with
  | (.ok a, s') => f a s'
  | (.err e, s') => (.err e, s')
  | (.panic p, s') => (.panic p, s')
  | (.diverge, s') => (.diverge, s')

instance : Monad (M σ) where
  pure := M.pure
  bind := M.bind

/-- Return `Err e`. -/
@[inline] def throw (e : DecodeErr) : M σ α := fun s => (.err e, s)
/-- Panic. -/
@[inline] def panic (p : Site) : M σ α := fun s => (.panic p, s)
/-- Out of fuel. -/
@[inline] def diverge : M σ α := fun s => (.diverge, s)
/-- Read the state. -/
@[inline] def get : M σ σ := fun s => (.ok s, s)
/-- Change the state. -/
@[inline] def modify (f : σ → σ) : M σ Unit := fun s => (.ok (), f s)
/-- Index a slice: `l[i]`, panicking when out of range. -/
@[inline] def idx (l : List α) (i : Nat) : M σ α := fun s =>
  match l[i]? with
  | some a => (.ok a, s)
  | none => (.panic .index, s)
/-- `opt.ok_or(e)?` -/
@[inline] def okOr (o : Option α) (e : DecodeErr) : M σ α := fun s =>
  match o with
  | some a => (.ok a, s)
  | none => (.err e, s)
/-- `opt.unwrap()` -/
@[inline] def unwrap (o : Option α) : M σ α := fun s =>
  match o with
  | some a => (.ok a, s)
  | none => (.panic .unwrap, s)
/-- Embed an outcome. -/
@[inline] def ofOut (o : Out α) : M σ α := fun s => (o, s)
/-- `if c { return Err(e) }` -/
@[inline] def failIf (c : Bool) (e : DecodeErr) : M σ Unit := fun s =>
  if c then (.err e, s) else (.ok (), s)
/-- `for x in l { f(x)? }` -/
def forList : List α → (α → M σ Unit) → M σ Unit
  | [], _ => M.pure ()
  | a :: l, f => M.bind (f a) (fun _ => forList l f)
/-- A `for` loop that threads a value through its body. -/
def foldM : List α → β → (β → α → M σ β) → M σ β
  | [], b, _ => M.pure b
  | a :: l, b, f => M.bind (f b a) (fun b' => foldM l b' f)
end M

/-- `misc.rs:84-106` -/
inductive ColorSpace where
  | rgb | grayscale | ycbcr | cmyk | ycck | rgba | rgbx
  deriving DecidableEq, Repr

/-- `misc.rs:113-121` -/
def ColorSpace.numComponents : ColorSpace → Nat
  | .rgb | .ycbcr => 3
  | .cmyk | .rgba | .rgbx | .ycck => 4
  | .grayscale => 1

/-- `options.rs:6-25`. The `u16`, `u32` and `usize` fields are natural numbers. -/
structure Options where
  useUnsafe : Bool := true
  outColorspace : ColorSpace := .rgb
  numThreads : Nat := 4
  maxWidth : Nat := 16384
  maxHeight : Nat := 16384
  maxScans : Nat := 64
  strictMode : Bool := false
  deriving DecidableEq, Repr

namespace Options
/-- `options.rs:26-48` -/
def new : Options := {}
/-- `options.rs:53-56` -/
def getOutColorspace (o : Options) : ColorSpace := o.outColorspace
/-- `options.rs:58-62` -/
def setOutColorspace (o : Options) (c : ColorSpace) : Options := { o with outColorspace := c }
/-- `options.rs:66-69` -/
def getUseUnsafe (o : Options) : Bool := o.useUnsafe
/-- `options.rs:73-77` -/
def setUseUnsafe (o : Options) (b : Bool) : Options := { o with useUnsafe := b }
/-- `options.rs:83-86` -/
def getThreads (o : Options) : Nat := o.numThreads
/-- `options.rs:90-94`; the argument is a `NonZeroU32`. -/
def setNumThreads (o : Options) (n : Nat) : Options := { o with numThreads := n }
/-- `options.rs:99-102` -/
def getMaxWidth (o : Options) : Nat := o.maxWidth
/-- `options.rs:108-112` -/
def setMaxWidth (o : Options) (n : Nat) : Options := { o with maxWidth := n }
/-- `options.rs:117-120` -/
def getMaxHeight (o : Options) : Nat := o.maxHeight
/-- `options.rs:126-130` -/
def setMaxHeight (o : Options) (n : Nat) : Options := { o with maxHeight := n }
/-- `options.rs:133-136` -/
def getMaxScans (o : Options) : Nat := o.maxScans
/-- `options.rs:142-146` -/
def setMaxScans (o : Options) (n : Nat) : Options := { o with maxScans := n }
/-- `options.rs:149-152` -/
def getStrictMode (o : Options) : Bool := o.strictMode
/-- `options.rs:155-159` -/
def setStrictMode (o : Options) (b : Bool) : Options := { o with strictMode := b }
end Options

/-- The CPU features that `is_x86_feature_detected!` reports at run time (with the crate feature
`x86` on an x86 target; all false otherwise). -/
structure Cpu where
  sse41 : Bool
  avx2 : Bool
  deriving DecidableEq, Repr

end Zune
