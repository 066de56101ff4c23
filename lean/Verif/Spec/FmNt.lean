import Verif.Model.FmNt
import Verif.Spec.Fm
/-
The memory of the chip, and what a complete configuration of it is.
-/
namespace Verif.FmNt

/-- A memory: an access at an address, and the next access is at the next address. -/
def memory : Spec.Fm.Dev (Nat → Byte) where
  read a m := (m a, m)
  write a x m := fun i => if i = a then x else m i
  next a := a + 1

/-- `n` bytes from `a` on. -/
def bytesAt (m : Nat → Byte) (a n : Nat) : Bytes := (List.range n).map fun i => m (a + i)

/-- The memory has the configuration, the answers of the card to a reader, and the checksum over the serial number and
ATQA and SAK that are in it. -/
structure Configured (m : Nat → Byte) : Prop where
  cfg : bytesAt m 0x390 4 = [0x91, 0x82, 0x21, 0xCD]
  ats : bytesAt m 0x3B0 7 = [0x05, 0x72, 0x80, 0x57, 0x00, 0x99, 0x00]
  atqa : bytesAt m 0x3BC 4 = [0x44, 0x00, 0x04, 0x20]
  crc : (m 0x3BB).toNat = Fm.crc8 (bytesAt m 0 9 ++ bytesAt m 0x3BC 4)

/-- The addresses of the configuration. -/
def isConfig (i : Nat) : Prop := (0x390 ≤ i ∧ i < 0x394) ∨ (0x3B0 ≤ i ∧ i < 0x3B7) ∨ (0x3BB ≤ i ∧ i < 0x3C0)

end Verif.FmNt
