import Verif.Base.Mem
/-
The driver of the NFC chip FM11NT on the I²C bus (`/repo/interfaces/NFC/fm.c:139-210`), through which `fm_read_regs`,
`fm_write_regs`, `fm_read_eeprom`, `fm_write_eeprom`, `fm_read_fifo` and `fm_write_fifo` go with that chip
(`fm.c:15-103`).
-/
namespace Verif.Fm

/-- The functions of the platform that drive the bus (`/repo/include/device.h:77-84`). `write` tells whether the byte
was acknowledged. -/
structure Pins (β : Type) where
  start : β → β
  stop : β → β
  sendAck : β → β
  sendNack : β → β
  write : Byte → β → Bool × β
  read : β → Byte × β

variable {β : Type}

/-- A sequence of `I2C_WRITE_WITH_CHECK` (`fm.c:5-8`): the function returns at the first byte that is not
acknowledged. -/
def writes (p : Pins β) : Bytes → β → Bool × β
  | [], b => (true, b)
  | d :: ds, b =>
    match p.write d b with
    | (true, b) => writes p ds b
    | (false, b) => (false, b)

/-- The loop of `fm11nt_read` (`fm.c:158-172`) with `n` bytes to go. `scl_delay` is a pause. -/
def readLoop (p : Pins β) : Nat → β → Bytes × β
  | 0, b => ([], b)
  | n + 1, b =>
    let (d, b) := p.read b
    if n = 0 then ([d], p.stop (p.sendNack b))
    else
      let (ds, b) := readLoop p n (p.sendAck b)
      (d :: ds, b)

/-- The two bytes of an address. -/
def addrBytes (a : UInt16) : Bytes := [UInt8.ofNat (a.toNat / 256), UInt8.ofNat (a.toNat % 256)]

/-- `fm11nt_read` (`fm.c:143-175`): true for `FM_STATUS_OK`, and the bytes stored. -/
def read (p : Pins β) (a : UInt16) (len : UInt8) (b : β) : Bool × Bytes × β :=
  match writes p ([0xAE] ++ addrBytes a) (p.start b) with
  | (false, b) => (false, [], b)
  | (true, b) =>
    match writes p [0xAF] (p.start b) with
    | (false, b) => (false, [], b)
    | (true, b) =>
      let (ds, b) := readLoop p len.toNat b
      (true, ds, b)

/-- `fm11nt_write` (`fm.c:177-194`). -/
def write (p : Pins β) (a : UInt16) (d : Bytes) (b : β) : Bool × β :=
  match writes p ([0xAE] ++ addrBytes a) (p.start b) with
  | (false, b) => (false, b)
  | (true, b) =>
    match writes p d b with
    | (false, b) => (false, b)
    | (true, b) => (true, p.stop b)

/-- One round of `fm_crc8` (`fm.c:200-206`). -/
def crcRound (c : Nat) : Nat := (if c % 2 = 1 then (c / 2) ^^^ 0xb8 else c / 2) % 256

/-- One byte of `fm_crc8` (`fm.c:199-207`). -/
def crcByte (c : Nat) (d : Byte) : Nat :=
  crcRound (crcRound (crcRound (crcRound (crcRound (crcRound (crcRound (crcRound (c ^^^ d.toNat))))))))

/-- `fm_crc8` (`fm.c:196-210`). -/
def crc8 (d : Bytes) : Nat := d.foldl crcByte 0xff

end Verif.Fm
