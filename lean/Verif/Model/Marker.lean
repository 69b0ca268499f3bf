import Verif.Model.Basic
/-!
# JPEG markers (`marker.rs`)
-/

namespace Zune

/-- `marker.rs:4-44` -/
inductive Marker where
  | sof (n : Nat) | dht | dac | rst (n : Nat) | soi | eoi | sos | dqt | dnl | dri | app (n : Nat)
  | com
  deriving DecidableEq, Repr

/-- `marker.rs:48-78` (`Marker::from_u8`) -/
def Marker.fromU8 (n : UInt8) : Option Marker :=
  match n.toNat with
  | 0xFE => some .com
  | 0xC0 => some (.sof 0)
  | 0xC2 => some (.sof 2)
  | 0xC4 => some .dht
  | 0xCC => some .dac
  | 0xD0 => some (.rst 0)
  | 0xD1 => some (.rst 1)
  | 0xD2 => some (.rst 2)
  | 0xD3 => some (.rst 3)
  | 0xD4 => some (.rst 4)
  | 0xD5 => some (.rst 5)
  | 0xD6 => some (.rst 6)
  | 0xD7 => some (.rst 7)
  | 0xD8 => some .soi
  | 0xD9 => some .eoi
  | 0xDA => some .sos
  | 0xDB => some .dqt
  | 0xDC => some .dnl
  | 0xDD => some .dri
  | 0xE0 => some (.app 0)
  | 0xE1 => some (.app 1)
  | 0xEE => some (.app 14)
  | _ => none

end Zune
