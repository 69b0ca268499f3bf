/-! Entropy coded data of a scan, up to the end of the image. -/

namespace Zune.Spec

/-- The bytes from the start of the entropy coded data (T.81 B.1.1.5) to the end-of-image marker: data bytes,
stuffed `FF 00` pairs, restart markers and fill bytes in front of markers. -/
inductive EndedData : List UInt8 → Prop where
  | eoi : EndedData [0xFF, 0xD9]
  | byte {b : UInt8} {r : List UInt8} : b ≠ 0xFF → EndedData r → EndedData (b :: r)
  | stuffed {r : List UInt8} : EndedData r → EndedData (0xFF :: 0 :: r)
  | restart {b : UInt8} {r : List UInt8} : 0xD0 ≤ b → b ≤ 0xD7 → EndedData r → EndedData (0xFF :: b :: r)
  | fill {r : List UInt8} : EndedData (0xFF :: r) → EndedData (0xFF :: 0xFF :: r)

end Zune.Spec
