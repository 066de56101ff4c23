import Verif.Spec.PivKey
/-
The handshake for the management key as a small machine: what is pending, whether the host has the rights, and what
every request is answered.
-/
namespace Verif.Spec.Piv
open Verif.Piv Verif.KeyFile

/-- A handshake request. -/
inductive Ask where
  /-- a challenge is wanted -/
  | challenge
  /-- the answer to the challenge -/
  | answer (v : Bytes)
  /-- a witness is wanted -/
  | witness
  /-- the witness in the clear, and a challenge for the device -/
  | confirm (v c : Bytes)
  deriving DecidableEq

/-- The elements of the template that make the request (witness 80, challenge 81, response 82). -/
def Asks (l : List Item) : Ask → Prop
  | .challenge => valueOf 0x81 l = some []
  | .answer v => valueOf 0x82 l = some v ∧ v ≠ [] ∧ valueOf 0x81 l ≠ some []
  | .witness => valueOf 0x80 l = some [] ∧ valueOf 0x81 l ≠ some [] ∧ (valueOf 0x82 l).getD [] = []
  | .confirm v c => valueOf 0x80 l = some v ∧ v ≠ [] ∧ valueOf 0x81 l = some c ∧ c ≠ [] ∧ (valueOf 0x82 l).getD [] = []

/-- GENERAL AUTHENTICATE with the management key (9B, algorithm 3DES) and this request. -/
def IsAsk (i : In) (a : Ask) : Prop :=
  i.c.cla = 0 ∧ i.c.ins = 0x87 ∧ (i.c.p1 = 0 ∨ i.c.p1 = 3) ∧ i.c.p2 = 0x9B ∧ ∃ l, Template i.c.data l ∧ Asks l a

/-- What the device waits for. -/
inductive Pending where
  | nothing
  /-- a challenge was given out: the value that answers it -/
  | answer (v : Bytes)
  /-- a witness was given out: its value in the clear -/
  | witness (v : Bytes)
  deriving DecidableEq

structure Hand where
  pending : Pending
  rights : Bool
  deriving DecidableEq

/-- One request. `enc` encrypts with the management key, `rnd` are the fresh random bytes. -/
def Hand.ask (enc : Bytes → Bytes) (rnd : Bytes) (s : Hand) : Ask → Hand × Bytes × Nat
  | .challenge => (⟨.answer (enc rnd), false⟩, [0x7C, 0x0A, 0x81, 0x08] ++ rnd, 0x9000)
  | .answer v =>
    if v.length = 8 ∧ s.pending = .answer v then (⟨.nothing, true⟩, [], 0x9000)
    else (⟨.nothing, s.rights⟩, [], 0x6982)
  | .witness => (⟨.witness rnd, false⟩, [0x7C, 0x0A, 0x80, 0x08] ++ enc rnd, 0x9000)
  | .confirm v c =>
    if v.length = 8 ∧ s.pending = .witness v then
      if c.length = 8 then (⟨.nothing, true⟩, [0x7C, 0x0A, 0x82, 0x08] ++ enc c, 0x9000)
      else (⟨.nothing, s.rights⟩, [], 0x6700)
    else (⟨.nothing, s.rights⟩, [], 0x6982)

/-- Commands that leave the handshake alone: all but GENERAL AUTHENTICATE, SELECT, SET MANAGEMENT KEY and RESET. -/
def QuietIns (i : In) : Prop := i.c.ins ≠ 0x87 ∧ i.c.ins ≠ 0xA4 ∧ i.c.ins ≠ 0xFF ∧ i.c.ins ≠ 0xFB

/-- What the host may have sent: a request of the handshake, or something else. -/
inductive Sent where
  | ask (i : In) (a : Ask)
  | other (i : In)

def Sent.inp : Sent → In
  | .ask i _ => i
  | .other i => i

/-- The request is made by the command; if the key wants a touch, it is there. -/
def Sent.Made (t : Byte) : Sent → Prop
  | .ask i a => IsAsk i a ∧ (t = 2 ∨ t = 3 → i.nfc = true ∨ i.present = true)
  | .other i => QuietIns i

/-- The machine on a history: the final state, and the answers to the requests. -/
def Hand.runs (enc : Bytes → Bytes) : Hand → List Sent → Hand × List (Option (Bytes × Nat))
  | s, [] => (s, [])
  | s, .ask i a :: h =>
    let (s', d, sw) := s.ask enc ((List.range 8).map i.rnd) a
    let (s'', o) := Hand.runs enc s' h
    (s'', some (d, sw) :: o)
  | s, .other _ :: h =>
    let (s'', o) := Hand.runs enc s h
    (s'', none :: o)

end Verif.Spec.Piv
