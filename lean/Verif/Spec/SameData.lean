import Verif.Lemmas.Segment
/-! Scan data that differ only in fill bytes and in the numbers of the restart markers. -/

namespace Zune.Spec

/-- The byte is that of a restart marker. -/
def IsRst (b : UInt8) : Prop := 0xD0 ≤ b ∧ b ≤ 0xD7

/-- Two ways to write the same data after a scan header (T.81 B.1.1.2, B.1.1.5): any number of fill bytes `FF`
may precede a marker, and restart markers may have any number. From the first other marker on the bytes are
the same; or, if `segs` is set, they are the same up to the end of the segment that it starts, and what
follows is again related in this way. -/
inductive SameData (segs : Bool) : List UInt8 → List UInt8 → Prop where
  | refl (l : List UInt8) : SameData segs l l
  | byte {b : UInt8} {l l' : List UInt8} : b ≠ 0xFF → SameData segs l l' → SameData segs (b :: l) (b :: l')
  | stuffed {l l' : List UInt8} : SameData segs l l' → SameData segs (0xFF :: 0 :: l) (0xFF :: 0 :: l')
  | restart (i j : Nat) {a b : UInt8} {l l' : List UInt8} : IsRst a → IsRst b → SameData segs l l' →
      SameData segs (0xFF :: (List.replicate i 0xFF ++ a :: l)) (0xFF :: (List.replicate j 0xFF ++ b :: l'))
  | marker (i j : Nat) {m : UInt8} (l : List UInt8) : m ≠ 0 → m ≠ 0xFF →
      SameData segs (0xFF :: (List.replicate i 0xFF ++ m :: l)) (0xFF :: (List.replicate j 0xFF ++ m :: l))
  | segment (i j : Nat) {m : UInt8} {p l l' : List UInt8} : segs = true → m ≠ 0 → m ≠ 0xFF → ¬ IsRst m →
      p.length + 2 < 65536 → SameData segs l l' →
      SameData segs (0xFF :: (List.replicate i 0xFF ++ m :: (lenBytes p.length ++ p ++ l)))
        (0xFF :: (List.replicate j 0xFF ++ m :: (lenBytes p.length ++ p ++ l')))

theorem SameData.symm {segs : Bool} {l l' : List UInt8} (h : SameData segs l l') : SameData segs l' l := by
  induction h with
  | refl l => exact .refl l
  | byte hb _ ih => exact .byte hb ih
  | stuffed _ ih => exact .stuffed ih
  | restart i j ha hb _ ih => exact .restart j i hb ha ih
  | marker i j l h0 hf => exact .marker j i l h0 hf
  | segment i j hs h0 hf hr hp _ ih => exact .segment j i hs h0 hf hr hp ih

end Zune.Spec
