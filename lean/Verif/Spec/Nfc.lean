import Verif.Model.Nfc
import Verif.Spec.Apdu
/-
The reader's side of the block protocol of ISO/IEC 14443-4 (section 7.5), and the words used in the NFC theorems.
-/
namespace Verif.Spec.Nfc
open Verif.Nfc

/-- The data is an ISO 7816-4 command. -/
def WellFormed (d : Bytes) : Prop := ∃ cla ins p1 p2 data ne, Spec.Apdu.Encodes cla ins p1 p2 data ne d

/-- The bit for block number `true` (1) or `false` (0). -/
def num (b : Bool) : Byte := if b then 1 else 0

/-- An I-block. The checksum is any two bytes: the chip has verified it. -/
def iBlock (n chain : Bool) (inf : Bytes) (c1 c2 : Byte) : Bytes :=
  (0x02 ||| num n ||| if chain then 0x10 else 0) :: inf ++ [c1, c2]

/-- R(ACK) and R(NAK). -/
def rAck (n : Bool) (c1 c2 : Byte) : Bytes := [0xA2 ||| num n, c1, c2]
def rNak (n : Bool) (c1 c2 : Byte) : Bytes := [0xB2 ||| num n, c1, c2]

/-- The card waits for a command; its block number is `n`. -/
structure Ready (s : St) (n : Bool) : Prop where
  next : s.next = .toReceive
  hung : s.hung = false
  rx : s.rxSize = 0
  inf : s.inf = false
  bn : s.bn = num n
  buf : s.buf.length = 1342
  rxb : s.rx.length = 32

def execOf : Ev → Option (Bytes × Bytes)
  | .exec a r => some (a, r)
  | _ => none

def frameOf : Ev → Option Bytes
  | .sent f => some f
  | _ => none

/-- The commands executed so far, the latest first, with their responses. -/
def executed (s : St) : List (Bytes × Bytes) :=
  s.log.filterMap execOf

/-- The frames sent so far, the latest first. -/
def frames (s : St) : List Bytes :=
  s.log.filterMap frameOf

/-- One step of the transfer of a command. -/
inductive Part where
  /-- the next block arrives -/
  | block (inf : Bytes) (c1 c2 : Byte) (e : Nfc.Env)
  /-- the next block was lost, and the reader asks with R(NAK) whether the card has seen it -/
  | probe (c1 c2 : Byte) (e : Nfc.Env)
  deriving DecidableEq, Repr

/-- What the card sees of the transfer of the chained blocks of a command, the reader's block number being `n`. -/
def chained (n : Bool) : List Part → List Op
  | [] => []
  | .block i c1 c2 e :: l => .irq (.frame (iBlock n true i c1 c2)) :: .loop e :: chained (!n) l
  | .probe c1 c2 e :: l => .irq (.frame (rNak n c1 c2)) :: .loop e :: chained n l

/-- The bytes transferred. -/
def bytes : List Part → Bytes
  | [] => []
  | .block i _ _ _ :: l => i ++ bytes l
  | .probe .. :: l => bytes l

/-- The number of the block after these. -/
def after (n : Bool) : List Part → Bool
  | [] => n
  | .block .. :: l => after (!n) l
  | .probe .. :: l => after n l

/-- The blocks have at most 29 bytes: a frame has at most 32. -/
def fits : List Part → Prop
  | [] => True
  | .block i _ _ _ :: l => i.length ≤ 29 ∧ fits l
  | .probe .. :: l => fits l

/-- The answers that the reader expects: R(ACK) with its own number for a block, with the other one if the block was
lost. The latest first. -/
def acks (n : Bool) : List Part → List Bytes
  | [] => []
  | .block .. :: l => acks (!n) l ++ [[0xA2 ||| num n]]
  | .probe .. :: l => acks n l ++ [[0xA2 ||| num (!n)]]

/-- Waiting time extensions while a command is executed: the card asks, the reader answers. -/
inductive Waits : List Irq → Prop
  | nil : Waits []
  | cons (f : Bytes) (h : f.length ≤ 32) : Waits l → Waits (.wtx :: .frame f :: l)

/-- The reader while it receives a response: its block number, what it has, and whether the last block has come. -/
structure Reader where
  n : Bool
  acc : Bytes
  done : Bool
  deriving DecidableEq, Repr

/-- The reader takes a frame: an I-block with its number is the next one, anything else is ignored. The second result
tells whether the block was taken. -/
def Reader.take (r : Reader) (f : Bytes) : Reader × Bool :=
  match f with
  | p :: d =>
    if p = 0x02 ||| num r.n then (⟨!r.n, r.acc ++ d, true⟩, true)
    else if p = 0x12 ||| num r.n then (⟨!r.n, r.acc ++ d, false⟩, true)
    else (r, false)
  | [] => (r, false)

/-- A round of the reception: whether the frame that the card has sent, and the request of the reader, get lost; the
checksum of the request. -/
structure Round where
  frameLost : Bool
  requestLost : Bool
  c1 : Byte
  c2 : Byte
  e : Nfc.Env
  deriving DecidableEq, Repr

/-- The card gets a frame: the new state and the frame it answers with. -/
def deliver (s : St) (f : Bytes) (e : Nfc.Env) : C (St × Option Bytes) := do
  let s' ← run s [.irq (.frame f), .loop e]
  return (s', ((frames s').take ((frames s').length - (frames s).length)).head?)

/-- The reception of a response: the reader acknowledges a block with R(ACK), and sends R(NAK) if none has come;
`flight` is the frame on its way to the reader. -/
def receive (s : St) (r : Reader) (flight : Option Bytes) : List Round → C (St × Reader)
  | [] => .ok (s, r)
  | x :: l =>
    if r.done then .ok (s, r)
    else do
      let (r, got) := match flight with
        | some f => if x.frameLost then (r, false) else r.take f
        | none => (r, false)
      if r.done || x.requestLost then receive s r none l
      else
        let (s, fl) ← deliver s (if got then rAck r.n x.c1 x.c2 else rNak r.n x.c1 x.c2) x.e
        receive s r fl l

/-- A round without losses. -/
def good (x : Round) : Prop := x.frameLost = false ∧ x.requestLost = false

/-- A frame and the turn of the main loop that handles it. -/
structure Turn where
  f : Bytes
  e : Nfc.Env
  deriving DecidableEq, Repr

/-- The operations of a list of turns. -/
def turns (l : List Turn) : List Op := l.flatMap fun t => [.irq (.frame t.f), .loop t.e]

/-- The frame is an I-block. -/
def isI (f : Bytes) : Bool := match f with | p :: _ => p &&& 0xC0 == 0 | [] => false

/-- The frame is an I-block that announces another one. -/
def isChained (f : Bytes) : Bool := match f with | p :: _ => p &&& 0xC0 == 0 && p &&& 0x10 != 0 | [] => false

/-- The number of bytes in the chain of I-blocks that is being received after these turns, starting with `n`. -/
def chain (n : Nat) : List Turn → Nat
  | [] => n
  | t :: l => chain (if isChained t.f then n + (t.f.length - 3) else if isI t.f then 0 else n) l

end Verif.Spec.Nfc
