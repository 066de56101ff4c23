import Verif.Spec.Apdu
import Verif.Model.Ccid
/-
CCID messages as the host sees them (USB CCID specification, section 6).
-/
namespace Verif.Spec.Ccid
open Verif.Ccid

/-- A command message. -/
structure Msg where
  mt : Byte
  slot : Byte
  seq : Byte
  p0 : Byte
  p1 : Byte
  p2 : Byte
  data : Bytes
  deriving DecidableEq, Repr

/-- A little-endian 32-bit number. -/
def le4 (n : Nat) : Bytes :=
  [UInt8.ofNat n, UInt8.ofNat (n / 256), UInt8.ofNat (n / 65536), UInt8.ofNat (n / 16777216)]

/-- The bytes of a command message. -/
def encode (m : Msg) : Bytes := [m.mt] ++ le4 m.data.length ++ [m.slot, m.seq, m.p0, m.p1, m.p2] ++ m.data

/-- Commands the reader can take: 1342 bytes for an XfrBlock, 8 bytes otherwise. -/
def Fits (m : Msg) : Prop := if m.mt = 0x6F then m.data.length ≤ 1342 else m.data.length ≤ 8

/-- The bytes of a response to `m`. -/
def resp (m : Msg) (mt status err sp : Byte) (d : Bytes) : Bytes :=
  [mt] ++ le4 d.length ++ [m.slot, m.seq, status, err, sp] ++ d

/-- The data is an ISO 7816-4 command. -/
def WellFormed (d : Bytes) : Prop := ∃ cla ins p1 p2 data ne, Spec.Apdu.Encodes cla ins p1 p2 data ne d

/-- What is wrong with the parameters of a command: the slot, the length, `p1` and `p2` not zero, `p0`, `p1` or `p2` not
zero. -/
def problem (m : Msg) (two : Bool) : Option Byte :=
  if m.slot ≠ 0 then some 5
  else if m.data ≠ [] then some 1
  else if two ∧ (m.p1 ≠ 0 ∨ m.p2 ≠ 0) then some 8
  else if two = false ∧ (m.p0 ≠ 0 ∨ m.p1 ≠ 0 ∨ m.p2 ≠ 0) then some 7
  else none

/-- The answer-to-reset. -/
def theAtr : Bytes := [0x3B, 0xF7, 0x11, 0x00, 0x00, 0x81, 0x31, 0xFE, 0x65, 0x43, 0x61, 0x6E, 0x6F, 0x6B, 0x65, 0x79, 0x99]

/-- The response to a command other than XfrBlock, `status` being the status byte of the previous response; its lowest
two bits tell whether the card is active (0) or not (1), 0x40 marks a failed command. -/
def reply (status : Byte) (m : Msg) : Bytes :=
  let card := status &&& 3
  if m.mt = 0x62 then
    match problem m true with
    | some e => resp m 0x80 (0x40 ||| card) e 0 []
    | none => if m.p0 ≠ 0 then resp m 0x80 (0x40 ||| card) 7 0 [] else resp m 0x80 0 0x81 0 theAtr
  else if m.mt = 0x63 then
    match problem m false with
    | some e => resp m 0x81 (0x40 ||| card) e 0 []
    | none => resp m 0x81 1 0x81 0 []
  else if m.mt = 0x65 then
    match problem m false with
    | some e => resp m 0x81 (0x40 ||| card) e 0 []
    | none => resp m 0x81 card 0x81 0 []
  else if m.mt = 0x6C then
    match problem m false with
    | some e => resp m 0x82 (0x40 ||| card) e 1 []
    | none => resp m 0x82 card 0x81 1 [0x11, 0x10, 0x00, 0x15, 0x00, 0xFE, 0x00]
  else if m.mt = 0x6D ∨ m.mt = 0x61 then resp m 0x82 status 0 1 []
  else if m.mt = 0x6B then resp m 0x83 status 0 0 []
  else if m.mt = 0x69 then resp m 0x80 status 0 0 []
  else resp m 0x81 status 0 0 []

/-- Whether a command other than XfrBlock resets the applets: a power-on or power-off without problems. -/
def resets (m : Msg) : Prop :=
  (m.mt = 0x62 ∧ problem m true = none ∧ m.p0 = 0) ∨ (m.mt = 0x63 ∧ problem m false = none)

instance (m : Msg) : Decidable (resets m) := by unfold resets; infer_instance

/-- The packets of a history. -/
def packets : List Op → List Bytes
  | [] => []
  | .packet p :: h => p :: packets h
  | _ :: h => packets h

/-- An operation that may happen between the packets of a message: a packet, a turn of the main loop, other interfaces
asking for the buffer or giving it back. -/
def between : Op → Prop
  | .packet _ => True
  | .loop _ => True
  | .finished => False
  | .other o b => o ≠ 1 ∧ o ≠ 2 ∧ b.length ≤ 1342
  | .otherEnd o => o ≠ 2

/-- The reader waits for a command. -/
structure Ready (s : St) : Prop where
  st : s.st = .idle
  has : s.has = 0
  short : s.short.length = 8
  buf : s.buf.length = 1342

/-- No packet arrives while the command is processed. -/
def quiet (e : Ccid.Env) : Prop := e.a1 = [] ∧ e.a2 = [] ∧ e.a3 = []

end Verif.Spec.Ccid
