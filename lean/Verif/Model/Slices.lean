import Verif.Model.Basic
/-!
# Slice operations of the Rust standard library
-/

namespace Zune
variable {α : Type}

/-- `slice::chunks_exact(n)` for `n ≠ 0`: the full chunks of length `n` (callers panic for 0). -/
def chunksExact (n : Nat) (l : List α) : List (List α) :=
  (List.range (l.length / n)).map fun i => (l.drop (i * n)).take n

/-- Overwrite `l[pos .. pos + xs.len()]` with `xs`. -/
def writeAt (l : List α) (pos : Nat) (xs : List α) : List α :=
  l.take pos ++ xs ++ l.drop (pos + xs.length)

/-- `l.get_mut(pos..pos + xs.len()).unwrap()` followed by a copy. -/
def writeChecked (l : List α) (pos : Nat) (xs : List α) : Out (List α) :=
  if pos + xs.length ≤ l.length then .ok (writeAt l pos xs) else .panic .unwrap

/-- A loop body applied to all elements, stopping at a panic. -/
def Out.fold {β : Type} (f : β → α → Out β) : β → List α → Out β
  | b, [] => .ok b
  | b, a :: l => (f b a).bind fun b' => Out.fold f b' l

/-- Evaluate a list of jobs in order, stopping at the first that is not `ok`. -/
def Out.collect : List (Out α) → Out (List α)
  | [] => .ok []
  | o :: os => o.bind fun a => (Out.collect os).bind fun as => .ok (a :: as)

/-- `slice::windows(3)` -/
def windows3 : List α → List (α × α × α)
  | a :: b :: c :: l => (a, b, c) :: windows3 (b :: c :: l)
  | _ => []

/-- Copy `l` into a zeroed array of length `n`. -/
def fit (n : Nat) (z : α) (l : List α) : List α := (l ++ List.replicate (n - l.length) z).take n

end Zune
