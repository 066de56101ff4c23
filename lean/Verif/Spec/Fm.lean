import Verif.Model.Fm
/-
A chip on an I²C bus: it answers to the address 0x57, takes a sixteen bit address, and then takes or gives bytes.
-/
namespace Verif.Spec.Fm

/-- What is behind the bus: registers, memory and queues. Every access is at an address; `next` is the address of the
access after it. -/
structure Dev (σ : Type) where
  read : Nat → σ → Byte × σ
  write : Nat → Byte → σ → σ
  next : Nat → Nat

variable {σ : Type}

/-- Reading `n` bytes. -/
def readN (d : Dev σ) : Nat → Nat → σ → Bytes × σ
  | _, 0, s => ([], s)
  | a, n + 1, s =>
    let (x, s) := d.read a s
    let (xs, s) := readN d (d.next a) n s
    (x :: xs, s)

/-- Writing bytes. -/
def writeN (d : Dev σ) : Nat → Bytes → σ → σ
  | _, [], s => s
  | a, x :: xs, s => writeN d (d.next a) xs (d.write a x s)

/-- What the chip is doing. `drives` means that the chip holds the data line, because it has to send the next byte;
`sent` that it waits for the acknowledgement of a byte it sent. -/
inductive Mode where
  | idle
  | called
  | high
  | low (h : Byte)
  | takes (a : Nat)
  | drives (a : Nat)
  | sent (a : Nat)
  | done
deriving DecidableEq

/-- The chip, the address that was set last, whether everything on the bus was legal, and which of the next bytes it
will not acknowledge. -/
structure Bus (σ : Type) where
  dev : σ
  mode : Mode
  addr : Nat
  legal : Bool
  refuse : List Bool

/-- May the master begin? Not while the chip holds the data line or waits for an acknowledgement. -/
def Mode.free : Mode → Bool
  | .drives _ | .sent _ => false
  | _ => true

/-- A byte to the chip. -/
def Bus.take (d : Dev σ) (x : Byte) (b : Bus σ) : Bool × Bus σ :=
  match b.refuse with
  | true :: r => (false, { b with refuse := r, mode := .done, legal := b.legal && b.mode.free && (b.mode != .idle) })
  | _ =>
    let b := { b with refuse := b.refuse.tail }
    match b.mode with
    | .called =>
      if x = 0xAE then (true, { b with mode := .high })
      else if x = 0xAF then (true, { b with mode := .drives b.addr })
      else (false, { b with mode := .done })
    | .high => (true, { b with mode := .low x })
    | .low h => (true, { b with mode := .takes (h.toNat * 256 + x.toNat), addr := h.toNat * 256 + x.toNat })
    | .takes a => (true, { b with dev := d.write a x b.dev, mode := .takes (d.next a) })
    | _ => (false, { b with legal := false })

/-- The bus with this chip. -/
def pins (d : Dev σ) : Fm.Pins (Bus σ) where
  start b := { b with mode := .called, legal := b.legal && b.mode.free }
  stop b := { b with mode := .idle, legal := b.legal && b.mode.free && (b.mode != .idle) }
  sendAck b := match b.mode with
    | .sent a => { b with mode := .drives a }
    | _ => { b with legal := false }
  sendNack b := match b.mode with
    | .sent _ => { b with mode := .done }
    | _ => { b with legal := false }
  write x b := b.take d x
  read b := match b.mode with
    | .drives a => let (x, s) := d.read a b.dev; (x, { b with dev := s, mode := .sent (d.next a) })
    | _ => (0xFF, { b with legal := false })

/-- Nothing illegal has happened and the master may begin. -/
def Bus.Ready (b : Bus σ) : Prop := b.legal = true ∧ b.mode.free = true

/-- Nothing illegal has happened and the bus is free. -/
def Bus.Idle (b : Bus σ) : Prop := b.legal = true ∧ b.mode = .idle

end Verif.Spec.Fm
