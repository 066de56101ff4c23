import Verif.Model.Hid
/-
The CTAPHID framing as the host sees it (FIDO CTAP 2.1, section 11.2.4), independent of the device code.
-/
namespace Verif.Spec.Hid
open Verif.Hid (Frame Ev)

/-- Fill up with zeros. -/
def pad (n : Nat) (d : Bytes) : Bytes := d ++ List.replicate (n - d.length) 0

/-- The continuation packets for the rest of a message, numbered from `seq`. -/
def conts (cid : UInt32) (seq : Nat) (m : Bytes) : List Frame :=
  if h : m = [] then []
  else ⟨cid, UInt8.ofNat seq :: pad 59 (m.take 59)⟩ :: conts cid (seq + 1) (m.drop 59)
termination_by m.length
decreasing_by
  have := List.length_pos_iff.2 h
  simp only [List.length_drop]; omega

/-- The packets of a message: command and length in the first one, 57 bytes there and 59 in each of the others. -/
def encode (cid : UInt32) (cmd : Byte) (m : Bytes) : List Frame :=
  ⟨cid, [cmd, UInt8.ofNat (m.length / 256), UInt8.ofNat m.length] ++ pad 57 (m.take 57)⟩ :: conts cid 0 (m.drop 57)

/-- Collect continuation packets: same channel, ascending numbers from `seq`, until `n` bytes are complete. -/
def collect (cid : UInt32) (seq n : Nat) : List Frame → Option Bytes
  | [] => if n = 0 then some [] else none
  | f :: l =>
    if n = 0 ∨ f.cid ≠ cid ∨ f.body.length ≠ 60 ∨ f.body.head? ≠ some (UInt8.ofNat seq) then none
    else (collect cid (seq + 1) (n - 59) l).map fun r => (f.body.drop 1).take (min n 59) ++ r

/-- What the host makes of packets: channel, command and message. -/
def decode : List Frame → Option (UInt32 × Byte × Bytes)
  | [] => none
  | f :: l =>
    match f.body with
    | cmd :: h :: lo :: d =>
      let n := h.toNat * 256 + lo.toNat
      if d.length ≠ 57 then none
      else (collect f.cid 0 (n - 57) l).map fun r => (f.cid, cmd, d.take (min n 57) ++ r)
    | _ => none

/-- The packets sent according to a log (oldest first). -/
def sent (log : List Ev) : List Frame :=
  (log.filterMap fun | .sent f => some f | _ => none).reverse

/-- The messages handed over for execution (newest first). -/
def dispatched (log : List Ev) : List (UInt32 × Byte × Bytes) :=
  log.filterMap fun | .msg cid cmd m => some (cid, cmd, m) | _ => none

/-- An error packet. -/
def errorFrame (cid : UInt32) (code : Byte) : Frame := ⟨cid, [0xBF, 0, 1] ++ pad 57 [code]⟩

/-- What a packet of another channel is answered while a message is being received: CHANNEL_BUSY, unless the channel id
is not valid. -/
def refusal (f : Frame) : Frame :=
  errorFrame f.cid (if f.cid = 0 ∨ (f.cid = 0xFFFFFFFF ∧ f.cmd ≠ 0x86) then 0x0B else 0x06)

/-- The response to a message: `resp` is the answer of the CTAP layer (with the status word for a MSG), `rnd` a fresh
channel id. `none` when nothing is sent. -/
def response (cid : UInt32) (cmd : Byte) (m resp : Bytes) (rnd : UInt32) : Option (Byte × Bytes) :=
  if cmd = 0x83 then if m.length < 4 then some (0xBF, [0x03]) else some (cmd, resp)
  else if cmd = 0x90 then if m = [] then some (0xBF, [0x03]) else some (cmd, resp)
  else if cmd = 0x86 then
    let c := if cid = 0xFFFFFFFF then rnd else cid
    some (cmd, m.take 8 ++ [c.toUInt8, (c >>> 8).toUInt8, (c >>> 16).toUInt8, (c >>> 24).toUInt8] ++ [2, 1, 0, 0, 4])
  else if cmd = 0x81 then some (cmd, m)
  else if cmd = 0x88 then some (cmd, [])
  else if cmd = 0x91 then none
  else some (0xBF, [0x01])

end Verif.Spec.Hid
