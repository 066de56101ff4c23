import Verif.Model.Kbd
/-
What a host with a US keyboard layout makes of the reports. Written from the HID usage tables, not from
the device code.
-/
namespace Verif.Spec.Kbd
open Verif.Kbd

/-- Keys with usage, unshifted and shifted character (HID usage tables, page 7, US layout). -/
def layout : List (Byte × Char × Char) :=
  [(0x04, 'a', 'A'), (0x05, 'b', 'B'), (0x06, 'c', 'C'), (0x07, 'd', 'D'), (0x08, 'e', 'E'), (0x09, 'f', 'F'),
   (0x0A, 'g', 'G'), (0x0B, 'h', 'H'), (0x0C, 'i', 'I'), (0x0D, 'j', 'J'), (0x0E, 'k', 'K'), (0x0F, 'l', 'L'),
   (0x10, 'm', 'M'), (0x11, 'n', 'N'), (0x12, 'o', 'O'), (0x13, 'p', 'P'), (0x14, 'q', 'Q'), (0x15, 'r', 'R'),
   (0x16, 's', 'S'), (0x17, 't', 'T'), (0x18, 'u', 'U'), (0x19, 'v', 'V'), (0x1A, 'w', 'W'), (0x1B, 'x', 'X'),
   (0x1C, 'y', 'Y'), (0x1D, 'z', 'Z'), (0x1E, '1', '!'), (0x1F, '2', '@'), (0x20, '3', '#'), (0x21, '4', '$'),
   (0x22, '5', '%'), (0x23, '6', '^'), (0x24, '7', '&'), (0x25, '8', '*'), (0x26, '9', '('), (0x27, '0', ')'),
   (0x28, '\r', '\r'), (0x2C, ' ', ' '), (0x2D, '-', '_'), (0x2E, '=', '+'), (0x2F, '[', '{'), (0x30, ']', '}'),
   (0x31, '\\', '|'), (0x33, ';', ':'), (0x34, '\'', '"'), (0x35, '`', '~'), (0x36, ',', '<'), (0x37, '.', '>'),
   (0x38, '/', '?')]

/-- The character of a key, with or without Shift. -/
def keyChar (usage : Byte) (shift : Bool) : Option Byte :=
  (layout.find? (·.1 == usage)).map fun k => UInt8.ofNat (if shift then k.2.2 else k.2.1).toNat

/-- Characters typed by one report on top of the keys already held: every newly pressed key. -/
def typed (held : Bytes) : Bytes → Bytes
  | 1 :: m :: _ :: keys =>
    (keys.filter fun k => k != 0 && !held.contains k).filterMap fun k => keyChar k (m &&& 0x22 != 0)
  | _ => []

/-- Keys held after a report. -/
def holds (held : Bytes) : Bytes → Bytes
  | 1 :: _ :: _ :: keys => keys.filter (· != 0)
  | _ => held

/-- The text a host sees. -/
def hostText (held : Bytes) : List Bytes → Bytes
  | [] => []
  | r :: rs => typed held r ++ hostText (holds held r) rs

/-- Keys held after all reports. -/
def heldAfter (held : Bytes) : List Bytes → Bytes
  | [] => held
  | r :: rs => heldAfter (holds held r) rs

/-- Characters a US keyboard can type: printable ASCII and carriage return. -/
def Mappable (c : Byte) : Prop := (0x20 ≤ c ∧ c ≤ 0x7E) ∨ c = 0x0D

instance (c : Byte) : Decidable (Mappable c) := inferInstanceAs (Decidable (_ ∨ _))

/-- Reports among the observations. -/
def sent (o : List Out) : List Bytes := o.filterMap fun | .send b => some b | _ => none
/-- Texts whose typing was started. -/
def started (o : List Out) : List Bytes := o.filterMap fun | .start t => some t | _ => none

/-- A report without any key or modifier. -/
def Released (b : Bytes) : Prop := b = [1, 0, 0, 0, 0, 0, 0, 0] ∨ b = [2, 0]

/-- Releases alternate: every report that is not a release is followed, if by anything, by a release. -/
def ReleasedBetween (l : List Bytes) : Prop :=
  ∀ i a b, l[i]? = some a → l[i + 1]? = some b → ¬ Released a → Released b

/-- Ordinary events: time passing, touches, completions of transfers. -/
def Ordinary : Ev → Prop
  | .tick (some (some t)) => t.length ≤ 33
  | .tick _ => True
  | .dataIn => True
  | _ => False

/-- The host takes a report and the main loop runs once more. -/
def beat : List Ev := [.dataIn, .tick none]

end Verif.Spec.Kbd
