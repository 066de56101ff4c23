import Verif.Spec.Admin
/-
The admin applet as the host sees it: a small machine that says what every command answers and what it changes.
-/
namespace Verif.Spec.Admin
open Verif.Admin

/-- The PIN, the tries that are left, whether it has been shown in this session, the serial number once it was written, the
settings, and whether the device is switched on. -/
structure Mach where
  pin : Bytes
  tries : Nat
  shown : Bool
  sn : Option Bytes
  led : Bool
  ndef : Bool
  webusb : Bool
  powered : Bool
  deriving DecidableEq, Repr

/-- As it leaves the factory and after a factory reset: PIN 123456, three tries, LED, NDEF and WebUSB on. The serial number
is not touched. -/
def Mach.new (sn : Option Bytes) : Mach := ⟨[0x31, 0x32, 0x33, 0x34, 0x35, 0x36], 3, false, sn, true, true, true, true⟩

/-- An answer without data. -/
def Just (sw : Nat) (a : Reply) : Prop := a = .resp [] sw
/-- An answer the machine does not settle. -/
def Whatever (_ : Reply) : Prop := True

/-- VERIFY: the PIN has 6 to 64 bytes. A wrong value uses up one of three tries, the right one restores them; without data it
asks for the state. -/
def Mach.verify (m : Mach) (c : Apdu.Capdu) : (Reply → Prop) × Mach :=
  if c.p1 ≠ 0 ∨ c.p2 ≠ 0 then (Just 0x6A86, m)
  else if c.data = [] then (Just (if m.shown then 0x9000 else 0x63C0 + m.tries), m)
  else if c.data.length < 6 ∨ 64 < c.data.length then (Just 0x6700, { m with shown := false })
  else if m.tries = 0 then (Just 0x6983, { m with shown := false })
  else if c.data = m.pin then (Just 0x9000, { m with tries := 3, shown := true })
  else if m.tries = 1 then (Just 0x6983, { m with tries := 0, shown := false })
  else (Just (0x63C0 + (m.tries - 1)), { m with tries := m.tries - 1, shown := false })

/-- CHANGE PIN, in a session in which the PIN was shown. -/
def Mach.change (m : Mach) (c : Apdu.Capdu) : (Reply → Prop) × Mach :=
  if c.p1 ≠ 0 ∨ c.p2 ≠ 0 then (Just 0x6A86, m)
  else if c.data.length < 6 ∨ 64 < c.data.length then (Just 0x6700, m)
  else (Just 0x9000, { m with pin := c.data, tries := 3, shown := false })

/-- WRITE SN: four bytes, once. -/
def Mach.writeSn (m : Mach) (c : Apdu.Capdu) : (Reply → Prop) × Mach :=
  if c.p1 ≠ 0 ∨ c.p2 ≠ 0 then (Just 0x6A86, m)
  else if c.data.length ≠ 4 then (Just 0x6700, m)
  else if m.sn ≠ none then (Just 0x6985, m)
  else (Just 0x9000, { m with sn := some c.data })

/-- The serial number as it is reported: four bytes 0 while there is none. -/
def Mach.serial (m : Mach) : Bytes :=
  match m.sn with
  | none => [0, 0, 0, 0]
  | some d => if d.length < 4 then [0, 0, 0, 0] else d.take 4

/-- READ SN; with P1 = 1 it is the number of the chip. -/
def Mach.readSn (m : Mach) (c : Apdu.Capdu) : (Reply → Prop) × Mach :=
  if 1 < c.p1 ∨ c.p2 ≠ 0 then (Just 0x6A86, m)
  else if c.p1 = 1 then (Whatever, m)
  else if c.le < 4 then (Just 0x6700, m)
  else ((· = .resp m.serial 0x9000), m)

/-- CONFIG: P1 names the setting, the low bit of P2 is its new value. -/
def Mach.config (m : Mach) (c : Apdu.Capdu) : (Reply → Prop) × Mach :=
  if c.p1 = 1 then (Just 0x9000, { m with led := c.p2.toNat % 2 = 1 })
  else if c.p1 = 4 then (Just 0x9000, { m with ndef := c.p2.toNat % 2 = 1 })
  else if c.p1 = 5 then (Just 0x9000, { m with webusb := c.p2.toNat % 2 = 1 })
  else (Just 0x6A86, m)

/-- A setting as a byte. -/
def onOff (b : Bool) : Byte := if b then 1 else 0

/-- READ CONFIG: the settings; the third byte says whether the NDEF message is read-only, which is not part of the machine. -/
def Mach.readConfig (m : Mach) (c : Apdu.Capdu) : (Reply → Prop) × Mach :=
  if c.p1 ≠ 0 ∨ c.p2 ≠ 0 then (Just 0x6A86, m)
  else if c.le < 5 then (Just 0x6700, m)
  else ((fun a => ∃ ro, a = .resp [onOff m.led, 0, onOff ro, onOff m.ndef, onOff m.webusb, 0] 0x9000), m)

/-- FLASH USAGE. -/
def Mach.flashUsage (m : Mach) (i : In) : (Reply → Prop) × Mach :=
  if i.c.p1 ≠ 0 ∨ i.c.p2 ≠ 0 then (Just 0x6A86, m)
  else if i.c.le < 2 then (Just 0x6700, m)
  else ((· = .resp [i.usage, i.size] 0x9000), m)

open Classical in
/-- FACTORY RESET: the text RESET, the PIN blocked, over USB, and five touches. -/
noncomputable def Mach.factory (m : Mach) (i : In) : (Reply → Prop) × Mach :=
  if i.c.p1 ≠ 0 then (Just 0x6A86, m)
  else if i.c.data.length ≠ 5 then (Just 0x6700, m)
  else if i.c.data ≠ [0x52, 0x45, 0x53, 0x45, 0x54] then (Just 0x6A80, m)
  else if m.tries ≠ 0 ∨ i.nfc = true then (Just 0x6985, m)
  else if ¬ FiveTouches i.polls then (Just 0x6982, m)
  else (Just 0x9000, .new m.sn)

/-- The commands for a session in which the PIN was shown that do not concern this machine: certificates and keys of the
other applets, their settings, their resets, the NDEF message, and a vendor hook. -/
def foreign : List Byte := [0x01, 0x02, 0x11, 0x12, 0x43, 0x44, 0x03, 0x04, 0x05, 0x07, 0x08, 0x13, 0x09, 0xFF]

/-- A command: what it may answer and the machine after it. -/
noncomputable def Mach.command (m : Mach) (i : In) : (Reply → Prop) × Mach :=
  let c := i.c
  if c.ins = 0xA4 then if c.p1 ≠ 4 ∨ c.p2 ≠ 0 then (Just 0x6A86, m) else (Just 0x9000, m)
  else if c.ins = 0x31 then if 1 < c.p1 ∨ c.p2 ≠ 0 then (Just 0x6A86, m) else (Whatever, m)
  else if c.ins = 0x14 then (Whatever, m)
  else if c.ins = 0x32 then m.readSn c
  else if c.ins = 0x50 then m.factory i
  else if c.ins = 0x20 then m.verify c
  else if m.shown = false then (Just 0x6982, m)
  else if c.ins = 0x21 then m.change c
  else if c.ins = 0x30 then m.writeSn c
  else if c.ins = 0x40 then m.config c
  else if c.ins = 0x41 then m.flashUsage i
  else if c.ins = 0x42 then m.readConfig c
  else if c.ins ∈ foreign then (Whatever, m)
  else (Just 0x6D00, m)

/-- What a command may leave when power fails while it is executed: nothing done; all done; the new PIN in place and its
tries not yet restored; a serial number that is still empty. -/
def Mach.torn (m : Mach) (i : In) (m' : Mach) : Prop :=
  m' = m ∨ m' = (m.command i).2 ∨
  m.shown = true ∧ i.c.ins = 0x21 ∧ (m.command i).1 (.resp [] 0x9000) ∧ m' = { m with pin := i.c.data } ∨
  m.shown = true ∧ i.c.ins = 0x30 ∧ (m.command i).1 (.resp [] 0x9000) ∧ m' = { m with sn := some [] }

def Mach.off (m : Mach) : Mach := { m with shown := false, powered := false }

variable {σ τ : Type}

/-- One operation of a history. -/
inductive Mach.Next : Mach → Op σ τ → Out → Mach → Prop
  | answer {m : Mach} {i : In} {a : Reply} (hp : m.powered = true) (h : (m.command i).1 a) :
      Next m (.apdu i) (.reply a) (m.command i).2
  | cut {m m' : Mach} {i : In} (hp : m.powered = true) (h : m.torn i m') : Next m (.apdu i) .cut m'.off
  | ndef {m : Mach} {i : Ndef.In} {a : Reply} (hp : m.powered = true) : Next m (.ndef i) (.reply a) m
  | ndefCut {m : Mach} {i : Ndef.In} (hp : m.powered = true) : Next m (.ndef i) .cut m.off
  | other {m : Mach} {p : Sub σ τ Reply} {a : Reply} (hp : m.powered = true) : Next m (.other p) (.reply a) m
  | otherCut {m : Mach} {p : Sub σ τ Reply} (hp : m.powered = true) : Next m (.other p) .cut m.off
  | deselect {m : Mach} (hp : m.powered = true) : Next m .deselect .none { m with shown := false }
  | boot {m : Mach} {t : τ} : Next m (.boot t) .none { m with shown := false, powered := true }
  | bootCut {m : Mach} {t : τ} : Next m (.boot t) .cut m.off
  | off {m : Mach} {op : Op σ τ} (hp : m.powered = false) (h : ∀ t, op ≠ .boot t) : Next m op .none m

/-- A history that the machine allows, oldest first: the operations with what was observed. -/
inductive Mach.Trace : Mach → List (Op σ τ × Out) → Mach → Prop
  | nil {m : Mach} : Trace m [] m
  | cons {m m' m'' : Mach} {op : Op σ τ} {o : Out} {l : List (Op σ τ × Out)} (h : Next m op o m') (ht : Trace m' l m'') :
      Trace m ((op, o) :: l) m''

/-- The data of a command fits into a short APDU. -/
def Short : Op σ τ → Prop
  | .apdu i => i.c.data.length ≤ 255
  | _ => True

/-- A command to reset the whole device. -/
def IsFactory : Op σ τ → Prop
  | .apdu i => i.c.ins = 0x50
  | _ => False

/-- What the host sees of a history, oldest first. -/
def observed (l : List (St σ τ × Op σ τ × Out)) : List (Op σ τ × Out) := l.reverse.map (·.2)

end Verif.Spec.Admin
