import Verif.Model.Apdu
/-
ISO 7816-4 command encodings and the host's side of response chaining, independent of the decoder.
-/
namespace Verif.Spec.Apdu
open Verif.Apdu

/-- Two-byte big-endian field (only the low 16 bits are kept, so 65536 is encoded as 0). -/
def be2 (n : Nat) : Bytes := [UInt8.ofNat (n / 256), UInt8.ofNat n]

/-- The seven ISO 7816-4 encodings of a command.  `ne` is the maximal response length the command
allows: absent in case 1 (0), and - this is the convention of the decoder - the maximum of the
format (256 or 65536) in case 3, where the encoding carries no Le. -/
inductive Encodes (cla ins p1 p2 : Byte) : (data : Bytes) → (ne : Nat) → Bytes → Prop where
  | case1 : Encodes cla ins p1 p2 [] 0 [cla, ins, p1, p2]
  | case2S (ne : Nat) (h : 1 ≤ ne ∧ ne ≤ 256) :
      Encodes cla ins p1 p2 [] ne ([cla, ins, p1, p2] ++ [UInt8.ofNat ne])
  | case3S (data : Bytes) (h : 1 ≤ data.length ∧ data.length ≤ 255) :
      Encodes cla ins p1 p2 data 256 ([cla, ins, p1, p2] ++ [UInt8.ofNat data.length] ++ data)
  | case4S (data : Bytes) (h : 1 ≤ data.length ∧ data.length ≤ 255) (ne : Nat)
      (h' : 1 ≤ ne ∧ ne ≤ 256) :
      Encodes cla ins p1 p2 data ne
        ([cla, ins, p1, p2] ++ [UInt8.ofNat data.length] ++ data ++ [UInt8.ofNat ne])
  | case2E (ne : Nat) (h : 1 ≤ ne ∧ ne ≤ 65536) :
      Encodes cla ins p1 p2 [] ne ([cla, ins, p1, p2] ++ [0] ++ be2 ne)
  | case3E (data : Bytes) (h : 1 ≤ data.length ∧ data.length ≤ 65535) :
      Encodes cla ins p1 p2 data 65536 ([cla, ins, p1, p2] ++ [0] ++ be2 data.length ++ data)
  | case4E (data : Bytes) (h : 1 ≤ data.length ∧ data.length ≤ 65535) (ne : Nat)
      (h' : 1 ≤ ne ∧ ne ≤ 65536) :
      Encodes cla ins p1 p2 data ne
        ([cla, ins, p1, p2] ++ [0] ++ be2 data.length ++ data ++ be2 ne)

/-- The host sends commands one after the other and collects the answers. -/
def exchange {σ : Type} (A : Applets σ) : St σ → List Capdu → C (St σ × List Rapdu)
  | s, [] => .ok (s, [])
  | s, c :: cs => do
    let (s, r) ← process A s c
    let (s, rs) ← exchange A s cs
    return (s, r :: rs)

/-- A command block with the chaining bit set. -/
def chainedBlock (cla ins p1 p2 : Byte) (b : Bytes × Nat) : Capdu :=
  ⟨cla ||| 0x10, ins, p1, p2, b.1, b.2⟩

/-- GET RESPONSE asking for at most `le` bytes. -/
def getResponse (le : Nat) : Capdu := ⟨0x00, 0xC0, 0x00, 0x00, [], le⟩

/-- Status word of an answer after which `remaining` bytes are still to be fetched. -/
def chunkSw (sw : UInt16) (remaining : Nat) : UInt16 :=
  if remaining = 0 then sw else UInt16.ofNat (0x6100 + min remaining 0xFF)

/-- What the host should see when it reads a response `data`/`sw` in chunks of at most `n` bytes for
each `n` in the list: consecutive pieces, each with the status word for what remains. -/
def answers (data : Bytes) (sw : UInt16) : List Nat → List Rapdu
  | [] => []
  | n :: ns => ⟨data.take n, chunkSw sw (data.length - n)⟩ :: answers (data.drop n) sw ns

/-- Applets that exhibit no undefined behaviour themselves and whose responses through the chaining
buffer fit it. -/
def GoodApplets {σ : Type} (A : Applets σ) : Prop :=
  ∀ a x c, ∃ x' r, A.handle a x c = .ok (x', r) ∧ (a.chained = true → r.data.length ≤ 1340)

/-- A chain of command blocks with this header is pending. -/
def Continues (ch : Chain) (c : Capdu) : Prop :=
  ch.inChaining = true ∧ ch.cla = unchain c.cla ∧ ch.ins = c.ins ∧ ch.p1 = c.p1 ∧ ch.p2 = c.p2

instance (ch : Chain) (c : Capdu) : Decidable (Continues ch c) := by unfold Continues; infer_instance

/-- The vendor command FF EE FF EE (eject), which the dispatcher handles itself. -/
def Eject (c : Capdu) : Prop := c.cla = 0xFF ∧ c.ins = 0xEE ∧ c.p1 = 0xFF ∧ c.p2 = 0xEE

/-- The command is not one of those the PIV applet is given without chaining (GET DATA CB, PUT DATA
DB, and GET RESPONSE continuing a GET DATA). -/
def NotOffloaded {σ : Type} (s : St σ) (ins : Byte) : Prop :=
  s.current = some .piv → ins ≠ 0xCB ∧ ins ≠ 0xDB ∧ (ins = 0xC0 → s.pivState = .other)

/-- GET RESPONSE. -/
def IsGetResponse (c : Capdu) : Prop := (unchain c.cla = 0x80 ∨ unchain c.cla = 0x00) ∧ c.ins = 0xC0

/-- SELECT by AID. -/
def IsSelect (c : Capdu) : Prop :=
  unchain c.cla = 0x00 ∧ c.ins = 0xA4 ∧ c.p1 = 0x04 ∧ c.p2 = 0x00

instance (c : Capdu) : Decidable (IsSelect c) := by unfold IsSelect; infer_instance

/-- The applet a SELECT names: the first in the list whose AID is a prefix of the data. -/
def selected (data : Bytes) : Option Applet :=
  [Applet.piv, .fido, .oath, .admin, .openpgp, .ndef].find? fun a => a.aid.isPrefixOf data

/-! ### Buffer ownership -/

/-- Atomic steps of interfaces using the shared buffer, in any order. -/
inductive Ev where
  | acqCas (o : Nat)
  | acqRead (o : Nat)
  | relCas (o : Nat)
  deriving DecidableEq, Repr

def Ev.who : Ev → Nat
  | .acqCas o | .acqRead o | .relCas o => o

/-- The owner variable and which interfaces believe they hold the buffer: an interface believes so
from the moment its acquire call answered success until it calls release. -/
structure Own where
  cur : Nat
  holds : Nat → Bool

def Own.step (s : Own) : Ev → Own
  | .acqCas o => { s with cur := acquireCas s.cur o }
  | .acqRead o => if acquireRead s.cur o then { s with holds := fun x => x == o || s.holds x } else s
  | .relCas o => { cur := releaseCas s.cur o, holds := fun x => x != o && s.holds x }

def Own.run (s : Own) (es : List Ev) : Own := es.foldl Own.step s

end Verif.Spec.Apdu
