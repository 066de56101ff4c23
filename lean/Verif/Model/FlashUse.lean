import Verif.Base.Mem
/-
The answer about the use of the flash memory (`/repo/src/fs.c:121-127`, `/repo/applets/admin/admin.c:153-162`).
-/
namespace Verif.FlashUse

/-- The value of a `uint32_t` after a cast to `int`. -/
def toInt (n : Nat) : Int := if n % 2 ^ 32 < 2 ^ 31 then (n % 2 ^ 32 : Nat) else (n % 2 ^ 32 : Nat) - 2 ^ 32

/-- `get_fs_size` (`fs.c:121`): block size times number of blocks, as `uint32_t`, then `int`; the division is that of C. -/
def fsSize (bs bc : Nat) : Int := (toInt (bs * bc)).tdiv 1024

/-- `get_fs_usage` (`fs.c:123-127`); `blocks` is the result of `lfs_fs_size`, negative for an error. -/
def fsUsage (bs : Nat) (blocks : Int) : Int := if blocks < 0 then blocks else (toInt (bs * blocks.toNat)).tdiv 1024

/-- The assignment of an `int` to a byte. -/
def toByte (i : Int) : Byte := UInt8.ofNat (i % 256).toNat

/-- `admin_flash_usage` (`admin.c:153-162`): status word and data. The same function in the model of the whole applet
(`Model/Admin.lean`, `flashUsage`) takes the two bytes as inputs; here they are computed. -/
def answer (p1 p2 le : Nat) (bs bc : Nat) (blocks : Int) : Nat × Bytes :=
  if p1 ≠ 0 ∨ p2 ≠ 0 then (0x6A86, [])
  else if le < 2 then (0x6700, [])
  else (0x9000, [toByte (fsUsage bs blocks), toByte (fsSize bs bc)])

end Verif.FlashUse
