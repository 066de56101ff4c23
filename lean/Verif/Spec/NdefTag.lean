import Verif.Spec.Ndef
/-
The NDEF tag as a host and the owner of the device see it: a machine with four components, whose answers
are determined by them.
-/
namespace Verif.Spec.NdefTag
open Verif.Ndef
open Verif.Apdu (Capdu)
open Verif.Spec.Ndef (File factoryMessage)

/-- The tag: whether it is powered, whether the owner made it read-only, the 1024 bytes of the message, and
the file the host selected. -/
structure Tag where
  on : Bool
  ro : Bool
  msg : Nat → Byte
  sel : Option File

/-- A new tag that has just been powered. -/
def Tag.new : Tag := ⟨true, false, factoryMessage, none⟩

/-- The capability container: version 2.0, 1024 bytes at a time, message file 0001 of 1024 bytes, free to
read, free to write unless read-only. -/
def capability (ro : Bool) : Bytes :=
  [0x00, 0x0F, 0x20, 0x04, 0x00, 0x04, 0x00, 0x04, 0x06, 0x00, 0x01, 0x04, 0x00, 0x00, if ro then 0xFF else 0x00]

/-- Size of a file. -/
def size : File → Nat
  | .container => 15
  | .message => 1024

/-- Byte `j` of a file. -/
def Tag.byte (t : Tag) : File → Nat → Byte
  | .container, j => (capability t.ro).getD j 0
  | .message, j => t.msg j

/-- Where a READ BINARY or UPDATE BINARY starts. -/
def place (c : Capdu) : Nat := 256 * c.p1.toNat + c.p2.toNat

/-- The bytes `m` with `d` written at `a`. -/
def overlay (m : Nat → Byte) (a : Nat) (d : Bytes) (j : Nat) : Byte :=
  if a ≤ j ∧ j < a + d.length then d.getD (j - a) 0 else m j

/-- The file an identifier names. -/
def named (d : Bytes) : Option File :=
  if d.take 2 = [0xE1, 0x03] then some .container else if d.take 2 = [0x00, 0x01] then some .message else none

/-- SELECT by identifier: files are named by two bytes, more are ignored. -/
def Tag.choose (t : Tag) (c : Capdu) : Tag × Reply :=
  if c.p1 = 4 ∧ c.p2 = 0 then (t, .sw 0x9000)
  else if c.p1 ≠ 0 ∨ c.p2 ≠ 0x0C then (t, .sw 0x6A86)
  else if c.data.length < 2 then (t, .sw 0x6700)
  else match named c.data with
    | some f => ({ t with sel := some f }, .sw 0x9000)
    | none => (t, .sw 0x6A82)

/-- READ BINARY. -/
def Tag.read (t : Tag) (c : Capdu) : Reply :=
  if place c > 1024 ∨ c.le > 1024 then .sw 0x6700
  else match t.sel with
    | none => .sw 0x6985
    | some f =>
      if place c + c.le > size f then .sw 0x6700
      else .resp ((List.range c.le).map fun k => t.byte f (place c + k)) 0x9000

/-- UPDATE BINARY: only the message, only when not read-only, only inside the file. -/
def Tag.write (t : Tag) (c : Capdu) : Tag × Reply :=
  if place c > 1024 ∨ c.data.length > 1024 then (t, .sw 0x6700)
  else if t.sel ≠ some .message then (t, .sw 0x6985)
  else if t.ro then (t, .sw 0x6982)
  else if place c + c.data.length > 1024 then (t, .sw 0x6700)
  else (⟨t.on, t.ro, overlay t.msg (place c) c.data, t.sel⟩, .sw 0x9000)

/-- A command of the host. -/
def Tag.command (t : Tag) (c : Capdu) : Tag × Reply :=
  if c.ins = 0xA4 then t.choose c
  else if c.ins = 0xB0 then (t, t.read c)
  else if c.ins = 0xD6 then t.write c
  else (t, .sw 0x6D00)

/-- The tag without power. -/
def Tag.off (t : Tag) : Tag := { t with on := false, sel := none }

/-- What happens to the tag and what is answered. -/
def Tag.next (t : Tag) : Op → Tag × Out
  | .boot => ({ t with on := true, sel := none }, .reply (.sw 0x9000))
  | .apdu i => if t.on then ((t.command i.c).1, .reply (t.command i.c).2) else (t, .none)
  | .toggle c =>
    if t.on then
      if c.p1 = 0 then ({ t with ro := false }, .reply (.sw 0x9000))
      else if c.p1 = 1 then ({ t with ro := true }, .reply (.sw 0x9000))
      else (t, .reply (.sw 0x6A86))
    else (t, .none)
  | .reset => if t.on then ({ Tag.new with on := true }, .reply (.sw 0x9000)) else (t, .none)
  | .deselect => if t.on then ({ t with sel := none }, .none) else (t, .none)

/-- The tag after an operation: an interrupted one did nothing but switch it off. -/
def Tag.then_ (t : Tag) (op : Op) (o : Out) : Tag := if o = .cut then t.off else (t.next op).1

/-- A history of operations and what was observed is one of this machine. -/
def Obeyed : Tag → List (Op × Out) → Prop
  | _, [] => True
  | t, (op, o) :: l => (o = .cut ∨ o = (t.next op).2) ∧ Obeyed (t.then_ op o) l

/-- The answers of the machine. -/
def answers : Tag → List Op → List Out
  | _, [] => []
  | t, op :: l => (t.next op).2 :: answers (t.next op).1 l

/-- What the device answers, oldest first. -/
def seen (s : St) : List (Op × Env) → List (Op × Out)
  | [] => []
  | (op, env) :: h => (op, (step s op env).2) :: seen (step s op env).1 h

/-- A device that was never used. -/
def blank : St := ⟨⟨none, none⟩, none⟩

/-- Power may be cut at any moment except during a reset; the file system works. -/
def Works (h : List (Op × Env)) : Prop :=
  ∀ e ∈ h, match e.1 with
    | .reset => e.2.all noFault
    | _ => e.2.all cutsOnly

end Verif.Spec.NdefTag
