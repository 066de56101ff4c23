import Verif.Model.Ndef
/-
What a host may conclude about the two NDEF files from the commands it sent and the answers it got.
Logs are newest first.
-/
namespace Verif.Spec.Ndef
open Verif.Ndef

/-- The operation was answered with 9000. -/
def Accepted : Out → Prop
  | .reply (.resp _ sw) => sw = 0x9000
  | _ => False

instance : DecidablePred Accepted := fun o => match o with
  | .reply (.resp _ sw) => inferInstanceAs (Decidable (sw = 0x9000))
  | .reply (.ub _) => isFalse id
  | .none => isFalse id
  | .cut => isFalse id

/-- Files a host can select. -/
inductive File where
  | container
  | message
  deriving DecidableEq, Repr

/-- The file that is currently selected: by the last successful SELECT (by identifier) since the applet
was last switched to, reset or powered. -/
def selected : List (Op × Out) → Option File
  | [] => none
  | (.apdu i, o) :: old =>
    if o = .cut then none
    else if i.c.ins = 0xA4 ∧ i.c.p1 = 0 ∧ Accepted o then
      if i.c.data.take 2 = [0xE1, 0x03] then some .container
      else if i.c.data.take 2 = [0x00, 0x01] then some .message
      else selected old
    else selected old
  | (.toggle _, o) :: old => if o = .cut then none else selected old
  | (.reset, _) :: _ => none
  | (.deselect, _) :: _ => none
  | (.boot, _) :: _ => none

/-- Start of the range named by a READ BINARY or UPDATE BINARY command. -/
def start (i : In) : Nat := 256 * i.c.p1.toNat + i.c.p2.toNat

/-- The message a reset installs: an NDEF URI record "https://canokeys.org", then zeros. -/
def factoryMessage (j : Nat) : Byte :=
  (([0x00, 0x11, 0xD1, 0x01, 0x0D, 0x55, 0x04] : Bytes) ++
    ['c', 'a', 'n', 'o', 'k', 'e', 'y', 's', '.', 'o', 'r', 'g'].map fun (c : Char) => UInt8.ofNat c.toNat).getD j 0

/-- The byte of the message last written at position `j`. -/
def lastWritten (init : Nat → Byte) : List (Op × Out) → Nat → Byte
  | [], j => init j
  | (.apdu i, o) :: old, j =>
    if i.c.ins = 0xD6 ∧ Accepted o ∧ start i ≤ j ∧ j < start i + i.c.data.length then
      i.c.data.getD (j - start i) 0
    else lastWritten init old j
  | (.reset, o) :: old, j => if Accepted o then factoryMessage j else lastWritten init old j
  | (_, _) :: old, j => lastWritten init old j

/-- The byte of the capability container at position `j`: a reset installs the default one, byte 14
(write access) is set by the last successful TOGGLE of the admin applet. -/
def container (init : Nat → Byte) : List (Op × Out) → Nat → Byte
  | [], j => init j
  | (.toggle c, o) :: old, j =>
    if Accepted o ∧ j = 14 then (if c.p1 = 1 then 0xFF else 0x00) else container init old j
  | (.reset, o) :: old, j => if Accepted o then defaultCc.getD j 0 else container init old j
  | (_, _) :: old, j => container init old j

/-- A device that went through a complete installation, running or not. -/
structure Installed (s : St) (cc msg : Nat → Byte) : Prop where
  ccFile : s.flash.cc = some ((List.range 15).map cc)
  msgFile : s.flash.ndef = some ((List.range 1024).map msg)
  ram : ∀ r, s.ram = some r → r.cc = (List.range 15).map cc ∧ r.sel = .none

/-- The faults considered: any error and any power cut at any moment, except that booting does not meet
file-system errors (power cuts it may meet) and a reset runs to its end. -/
def Allowed (h : List (Op × Env)) : Prop :=
  ∀ e ∈ h, match e.1 with
    | .boot => Env.all cutsOnly e.2
    | .reset => Env.all noFault e.2
    | _ => True

end Verif.Spec.Ndef
