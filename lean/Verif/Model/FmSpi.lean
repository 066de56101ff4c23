import Verif.Base.Mem
/-
The driver of the NFC chip FM11NC (`/repo/interfaces/NFC/fm.c:15-119`, the branches `NFC_CHIP_FM11NC`), which is
connected by SPI.  Simplification: the pauses are not modelled; all functions return `FM_STATUS_OK`, which is left out.
-/
namespace Verif.FmSpi

/-- What the platform provides, on a world `σ`: `fm_csn_low`, `fm_csn_high`, `spi_transmit`, `spi_receive`
(`/repo/include/device.h`). -/
structure Spi (σ : Type) where
  low : σ → σ
  high : σ → σ
  tx : Bytes → σ → σ
  rx : Nat → σ → Bytes × σ

section
variable {σ : Type} (b : Spi σ)

/-- `fm_read_regs` (`fm.c:15-27`). -/
def readRegs (reg : Nat) (len : Nat) (s : σ) : Bytes × σ :=
  let s := b.low s
  let s := b.tx [UInt8.ofNat reg ||| 0x20] s
  let (d, s) := b.rx len s
  (d, b.high s)

/-- `fm_write_regs` (`fm.c:29-40`). -/
def writeRegs (reg : Nat) (buf : Bytes) (s : σ) : σ :=
  let s := b.low s
  let s := b.tx [UInt8.ofNat reg] s
  let s := b.tx buf s
  b.high s

/-- `fm_read_eeprom` (`fm.c:42-54`). -/
def readEeprom (addr : Nat) (len : Nat) (s : σ) : Bytes × σ :=
  let s := b.low s
  let s := b.tx [0x60 ||| UInt8.ofNat (addr / 256), UInt8.ofNat (addr % 256)] s
  let (d, s) := b.rx len s
  (d, b.high s)

/-- `fm_write_eeprom` (`fm.c:56-78`). -/
def writeEeprom (addr : Nat) (buf : Bytes) (s : σ) : σ :=
  let s := b.low s
  let s := b.tx [0xCE, 0x55] s
  let s := b.high s
  let s := b.low s
  let s := b.tx [0x40 ||| UInt8.ofNat (addr / 256), UInt8.ofNat (addr % 256)] s
  let s := b.tx buf s
  b.high s

/-- `fm_read_fifo` (`fm.c:80-91`). -/
def readFifo (len : Nat) (s : σ) : Bytes × σ :=
  let s := b.low s
  let s := b.tx [0xA0] s
  let (d, s) := b.rx len s
  (d, b.high s)

/-- `fm_write_fifo` (`fm.c:93-104`). -/
def writeFifo (buf : Bytes) (s : σ) : σ :=
  let s := b.low s
  let s := b.tx [0x80] s
  let s := b.tx buf s
  b.high s

/-- One of the loops `do { write; read; } while (memcmp(...) != 0)` of `fm11_init` (`fm.c:111-118`), cut off after
`fuel` rounds (`none`). -/
def store (addr : Nat) (v : Bytes) : Nat → σ → Option σ
  | 0, _ => none
  | fuel + 1, s =>
    let s := writeEeprom b addr v s
    let (d, s) := readEeprom b addr v.length s
    if d = v then some s else store addr v fuel s

/-- `atqa_sak` (`fm.c:109`). -/
def atqaSak : Bytes := [0x44, 0x00, 0x04, 0x20]
/-- `ats` (`fm.c:110`). -/
def ats : Bytes := [0x05, 0x72, 0x02, 0x00, 0xB3, 0x99, 0x00]

/-- `fm11_init` (`fm.c:106-118`); the addresses are `FM_EEPROM_ATQA` and `FM_EEPROM_ATS` (`/repo/include/nfc.h:30-31`). -/
def init (fuel : Nat) (s : σ) : Option σ :=
  match store b 0x3A0 atqaSak fuel s with
  | none => none
  | some s => store b 0x3B0 ats fuel s

end
end Verif.FmSpi
