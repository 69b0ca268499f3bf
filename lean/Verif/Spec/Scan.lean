import Verif.Spec.Bits
/-!
# Specification: entropy coded data (T.81 B.1.1.5, F.1.2.3)
-/

namespace Zune.Spec

/-- Split the bytes after a scan header into the data bytes and the marker that ends them, with the
bytes that follow the marker. `FF 00` is the data byte `FF`; further `FF` bytes before `00` or
before a marker code are fill bytes. The flag says that an `FF` has just been read. -/
def scan : Bool → List UInt8 → List UInt8 × Option (UInt8 × List UInt8)
  | _, [] => ([], none)
  | false, b :: r =>
    if b = 0xFF then scan true r
    else (b :: (scan false r).1, (scan false r).2)
  | true, b :: r =>
    if b = 0xFF then scan true r
    else if b = 0 then (0xFF :: (scan false r).1, (scan false r).2)
    else ([], some (b, r))

/-- The data bytes. -/
def scanData (bytes : List UInt8) : List UInt8 := (scan false bytes).1

/-- The marker after the data bytes and what follows it. -/
def scanEnd (bytes : List UInt8) : Option (UInt8 × List UInt8) := (scan false bytes).2

/-- The bits of a byte string, most significant bit of each byte first. -/
def bytesBits (bytes : List UInt8) : List Bool := bytes.flatMap fun b => natBits 8 b.toNat

end Zune.Spec
