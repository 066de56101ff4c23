import Verif.Model.WebUsb
import Verif.Spec.Apdu
/-
The exchange of commands and responses over WebUSB, as the host sees it.
-/
namespace Verif.Spec.WebUsb
open Verif.WebUsb

/-- The data is an ISO 7816-4 command. -/
def WellFormed (d : Bytes) : Prop := ∃ cla ins p1 p2 data ne, Spec.Apdu.Encodes cla ins p1 p2 data ne d

/-- Where an exchange is. -/
inductive Phase where
  | free
  /-- a command of `n` bytes is announced -/
  | announced (n : Nat)
  /-- these bytes of it have arrived -/
  | got (n : Nat) (d : Bytes)
  /-- it has been processed, with this response -/
  | answered (r : Bytes)
  deriving DecidableEq, Repr

/-- An exchange: a command is announced, its data arrives, it is processed once, its response is given out once. The
command that is processed has the announced length and starts with the data; a command that is not well-formed has the
response 6700. -/
inductive Next : Phase → Ev → Phase → Prop
  | accept : Next .free (.accepted n) (.announced n)
  | receive (h : d.length ≤ n) : Next (.announced n) (.received d) (.got n d)
  | process (h : cmd.length = n) (hp : d <+: cmd) (hw : WellFormed cmd ∨ r = [0x67, 0x00]) :
    Next (.got n d) (.done cmd r) (.answered r)
  | give (k : Nat) : Next (.answered r) (.gave (r.take k)) .free
  | refuse : Next p .refused p
  | reset : Next p .reset .free

/-- A log, the latest event first, that consists of exchanges. -/
inductive Exchanges : List Ev → Phase → Prop
  | nil : Exchanges [] .free
  | cons (h : Exchanges l p) (hn : Next p e q) : Exchanges (e :: l) q

/-- Nothing but WebUSB requests and other interfaces that respect the owner of the buffer; in particular no request for
a descriptor. -/
def polite : Irq → Prop
  | .desc _ => False
  | .other o b => o ≠ ownerWeb ∧ o ≠ Apdu.ownerNone ∧ b.length ≤ 1342
  | .otherEnd o => o ≠ ownerWeb
  | _ => True

/-- The same of a history; nothing happens between the check of the timeout and the release of the buffer, and the
host does not configure the device while a command is executed. -/
def politeOp : Op → Prop
  | .irq i => polite i
  | .loop e => e.a1 = [] ∧ (∀ i ∈ e.a2, polite i ∧ i ≠ .reset) ∧ e.resp.length ≤ 1340

/-- The time of the last request, starting with `t`. -/
def timeOf (t : Nat) : Irq → Nat
  | .cmd _ tick => tick
  | .resp _ tick => tick
  | .stat tick => tick
  | .bad tick => tick
  | .reset => 0
  | _ => t

end Verif.Spec.WebUsb
