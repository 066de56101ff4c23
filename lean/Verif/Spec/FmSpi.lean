import Verif.Model.FmSpi
/-
What an FM11NC is for its user: registers, an EEPROM and two queues; and what it does on the wires.  The chip is not
part of the repository and no data sheet was at hand: that a command has three bits and is followed by the five upper bits
of the address is an assumption that agrees with the constants of the code.
-/
namespace Verif.FmSpi

/-- The contents of the chip; `got` is what was received from the reader and not yet read, `send` what is to be sent. -/
structure Mem where
  regs : Nat → Byte
  eep : Nat → Byte
  got : Bytes
  send : Bytes

/-- The bytes `l` stored from `a` on. -/
def putAt (m : Nat → Byte) (a : Nat) (l : Bytes) : Nat → Byte :=
  fun i => if a ≤ i ∧ i < a + l.length then l.getD (i - a) 0 else m i

/-- `n` bytes from `a` on. -/
def getAt (m : Nat → Byte) (a n : Nat) : Bytes := (List.range n).map fun i => m (a + i)

/-- Calls of the driver. -/
inductive Call
  | readRegs (a n : Nat)
  | writeRegs (a : Nat) (l : Bytes)
  | readEeprom (a n : Nat)
  | writeEeprom (a : Nat) (l : Bytes)
  | readFifo (n : Nat)
  | writeFifo (l : Bytes)

/-- What a call should do and return. -/
def Mem.call (m : Mem) : Call → Bytes × Mem
  | .readRegs a n => (getAt m.regs a n, m)
  | .writeRegs a l => ([], { m with regs := putAt m.regs a l })
  | .readEeprom a n => (getAt m.eep a n, m)
  | .writeEeprom a l => ([], { m with eep := putAt m.eep a l })
  | .readFifo n => (m.got.take n, { m with got := m.got.drop n })
  | .writeFifo l => ([], { m with send := m.send ++ l })

/-- What all calls return, and the contents at the end. -/
def Mem.calls (m : Mem) : List Call → List Bytes × Mem
  | [] => ([], m)
  | c :: l => ((m.call c).1 :: ((m.call c).2.calls l).1, ((m.call c).2.calls l).2)

/-- The addresses that fit into the command: 32 registers, 8 KiB of EEPROM. -/
def Call.Ok : Call → Prop
  | .readRegs a _ | .writeRegs a _ => a < 32
  | .readEeprom a _ | .writeEeprom a _ => a < 8192
  | _ => True

/-- An EEPROM with the answers of the card to a reader: ATQA and SAK, and ATS. -/
def configured (m : Nat → Byte) (i : Nat) : Byte :=
  if 0x3B0 ≤ i ∧ i < 0x3B7 then ([0x05, 0x72, 0x02, 0x00, 0xB3, 0x99, 0x00] : Bytes).getD (i - 0x3B0) 0
  else if 0x3A0 ≤ i ∧ i < 0x3A4 then ([0x44, 0x00, 0x04, 0x20] : Bytes).getD (i - 0x3A0) 0
  else m i

/-- The chip: `frame` holds the bytes since it was selected; `open_` that the last frame was the permission to write
the EEPROM; `bad` that the wires were used in a way that is not allowed. -/
structure Chip where
  mem : Mem
  frame : Option Bytes
  open_ : Bool
  bad : Bool

/-- Selection. -/
def Chip.low (c : Chip) : Chip := if c.frame.isSome then { c with bad := true } else { c with frame := some [] }

/-- A byte string to the chip. -/
def Chip.tx (l : Bytes) (c : Chip) : Chip :=
  match c.frame with
  | none => { c with bad := true }
  | some f => { c with frame := some (f ++ l) }

/-- A byte string from the chip, which depends on the command it got: 1 registers, 3 EEPROM, 5 queue. -/
def Chip.rx (n : Nat) (c : Chip) : Bytes × Chip :=
  match c.frame with
  | some [h] =>
    if h.toNat / 32 = 1 then (getAt c.mem.regs (h.toNat % 32) n, c)
    else if h.toNat / 32 = 5 then (c.mem.got.take n, { c with mem := { c.mem with got := c.mem.got.drop n } })
    else ([], { c with bad := true })
  | some [h, a] =>
    if h.toNat / 32 = 3 then (getAt c.mem.eep (h.toNat % 32 * 256 + a.toNat) n, c) else ([], { c with bad := true })
  | _ => ([], { c with bad := true })

/-- The effect of a frame on the contents: 0 registers, 2 EEPROM (only with permission), 4 queue. -/
def Mem.frame (m : Mem) (perm : Bool) : Bytes → Mem
  | h :: l =>
    if h.toNat / 32 = 0 then { m with regs := putAt m.regs (h.toNat % 32) l }
    else if h.toNat / 32 = 4 then { m with send := m.send ++ l }
    else if h.toNat / 32 = 2 ∧ perm then
      match l with
      | a :: l => { m with eep := putAt m.eep (h.toNat % 32 * 256 + a.toNat) l }
      | [] => m
    else m
  | [] => m

/-- End of the selection. -/
def Chip.high (c : Chip) : Chip :=
  match c.frame with
  | none => { c with bad := true }
  | some f => { c with mem := c.mem.frame c.open_ f, frame := none, open_ := f == [0xCE, 0x55] }

/-- The chip on the wires. -/
def chip : Spi Chip := ⟨Chip.low, Chip.high, Chip.tx, Chip.rx⟩

/-- A chip that is not selected, with the contents `m`. -/
def Chip.idle (m : Mem) : Chip := ⟨m, none, false, false⟩

/-- The functions of the driver. -/
def Call.drive {σ : Type} (b : Spi σ) (s : σ) : Call → Bytes × σ
  | .readRegs a n => FmSpi.readRegs b a n s
  | .writeRegs a l => ([], FmSpi.writeRegs b a l s)
  | .readEeprom a n => FmSpi.readEeprom b a n s
  | .writeEeprom a l => ([], FmSpi.writeEeprom b a l s)
  | .readFifo n => FmSpi.readFifo b n s
  | .writeFifo l => ([], FmSpi.writeFifo b l s)

/-- A history of calls. -/
def driveAll {σ : Type} (b : Spi σ) (s : σ) : List Call → List Bytes × σ
  | [] => ([], s)
  | c :: l => ((c.drive b s).1 :: (driveAll b (c.drive b s).2 l).1, (driveAll b (c.drive b s).2 l).2)

end Verif.FmSpi
