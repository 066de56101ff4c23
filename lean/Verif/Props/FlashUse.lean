import Verif.Model.FlashUse
import Verif.Model.Admin
/-
C121: the use of the flash memory that is reported.
-/
namespace Verif.FlashUse

theorem toInt_small {n : Nat} (h : n < 2 ^ 31) : toInt n = n := by
  unfold toInt
  rw [if_pos (by omega)]
  omega

theorem kib {n : Nat} (h : n < 256 * 1024) : (toInt n).tdiv 1024 = ((n / 1024 : Nat) : Int) := by
  rw [toInt_small (by omega)]
  exact (Int.ofNat_tdiv n 1024).symm

theorem toByte_small {n : Nat} (h : n < 256) : (toByte (n : Int)).toNat = n := by
  unfold toByte
  rw [UInt8.toNat_ofNat']
  omega

/-- **C121**, for memories of less than 256 KiB whose use can be determined: the answer is the use and the size in KiB,
and the use is not larger than the size. -/
theorem C121_usage_partial (le bs bc blocks : Nat) (hl : 2 ≤ le) (hs : bs * bc < 256 * 1024) (hb : blocks ≤ bc) :
    ∃ used size, answer 0 0 le bs bc blocks = (0x9000, [used, size]) ∧ used.toNat = bs * blocks / 1024 ∧
      size.toNat = bs * bc / 1024 ∧ used ≤ size := by
  have hle : bs * blocks ≤ bs * bc := Nat.mul_le_mul_left bs hb
  have h1 : (toByte (fsUsage bs blocks)).toNat = bs * blocks / 1024 := by
    unfold fsUsage
    rw [if_neg (by omega), Int.toNat_natCast, kib (by omega)]
    exact toByte_small (by omega)
  have h2 : (toByte (fsSize bs bc)).toNat = bs * bc / 1024 := by
    unfold fsSize
    rw [kib hs]
    exact toByte_small (by omega)
  refine ⟨_, _, ?_, h1, h2, ?_⟩
  · unfold answer
    rw [if_neg (by omega), if_neg (by omega)]
  · rw [UInt8.le_iff_toNat_le, h1, h2]
    exact Nat.div_le_div_right hle

/-- **C121**, the parameters: a command with other parameters, or that leaves no room for two bytes, is refused with
the status for that and no data, and no other command is. -/
theorem C121_parameters (p1 p2 le bs bc : Nat) (blocks : Int) :
    ((answer p1 p2 le bs bc blocks).1 = 0x9000 ↔ p1 = 0 ∧ p2 = 0 ∧ 2 ≤ le) ∧
      ((answer p1 p2 le bs bc blocks).1 = 0x6A86 ↔ ¬(p1 = 0 ∧ p2 = 0)) ∧
      ((answer p1 p2 le bs bc blocks).1 ≠ 0x9000 → (answer p1 p2 le bs bc blocks).2 = []) ∧
      (answer p1 p2 le bs bc blocks).2.length ≤ le := by
  unfold answer
  split
  · simp; omega
  · split
    · simp; omega
    · simp; omega

/-- **C121, refuted for larger memories.** Both numbers are reported modulo 256: a memory of 256 KiB has the reported
size zero, whatever is in use. -/
theorem C121_refuted_large (le bs bc : Nat) (blocks : Int) (hl : 2 ≤ le) (hs : bs * bc = 256 * 1024) :
    ∃ used, answer 0 0 le bs bc blocks = (0x9000, [used, 0]) := by
  refine ⟨toByte (fsUsage bs blocks), ?_⟩
  unfold answer fsSize
  rw [if_neg (by omega), if_neg (by omega), hs]
  rfl

/-- **C121, refuted for errors.** If the use cannot be determined the answer is success, and the error code is given as
the use: error -5 is reported as 251 KiB. -/
theorem C121_refuted_error (le bs bc : Nat) (hl : 2 ≤ le) (e : Int) (he : -256 < e ∧ e < 0) :
    ∃ used size, answer 0 0 le bs bc e = (0x9000, [used, size]) ∧ (used.toNat : Int) = 256 + e := by
  refine ⟨_, _, by unfold answer; rw [if_neg (by omega), if_neg (by omega)], ?_⟩
  unfold fsUsage toByte
  rw [if_pos he.2, UInt8.toNat_ofNat']
  omega

/-- The function of the whole applet (`Model/Admin.lean`), if the two bytes it is given are those computed here, gives the
answer of this file: the same data with success, or the same status. -/
theorem C121_applet {σ τ : Type} (i : Admin.In) (bs bc : Nat) (blocks : Int) (hu : i.usage = toByte (fsUsage bs blocks))
    (hs : i.size = toByte (fsSize bs bc)) :
    (Admin.flashUsage i : Admin.M σ τ Reply) =
      (let a := answer i.c.p1.toNat i.c.p2.toNat i.c.le bs bc blocks
       if a.1 = 0x9000 then pure (.resp a.2 SW.ok)
       else if a.1 = 0x6A86 then throw (.sw SW.wrongP1P2) else throw (.sw SW.wrongLength)) := by
  have z : ∀ b : Byte, b.toNat = 0 ↔ b = 0 := fun b => ⟨fun h => UInt8.toNat_inj.mp h, fun h => by rw [h]; rfl⟩
  unfold Admin.flashUsage answer
  rw [hu, hs]
  by_cases h1 : i.c.p1 = 0 <;> by_cases h2 : i.c.p2 = 0 <;> by_cases h3 : i.c.le < 2 <;> simp [z, h1, h2, h3] <;> rfl

/-- A memory of 128 KiB in blocks of 512 bytes of which 100 are in use. -/
example : (2 : Nat) ≤ 256 ∧ 512 * 256 < 256 * 1024 ∧ 100 ≤ 256 ∧ answer 0 0 256 512 256 100 = (0x9000, [50, 128]) := by
  decide +kernel
example : answer 0 0 256 512 256 (-5) = (0x9000, [251, 128]) := by decide +kernel

end Verif.FlashUse
