import Verif.Base.Mem
/-
Model of the CTAPHID transport (`/repo/interfaces/USB/class/ctaphid/ctaphid.c`); line numbers refer to this file.

There is one variable `frame` for received and for sent frames. `CTAPHID_OutEvent` is called from the USB interrupt; the
model lets it happen before every `CTAPHID_Loop` and, through `St.arr`, before and after every transmission
(`/repo/interfaces/USB/class/ctaphid/usbd_ctaphid.c:86-106`). Simplifications: a frame handed to the USB stack is
transmitted (it is dropped when the host does not read for 50 ms); an interrupt never hits in the middle of a `memcpy`.
-/
namespace Verif.Hid

/-- `CTAPHID_FRAME` (`/repo/interfaces/USB/class/ctaphid/ctaphid.h:16-31`): the channel and 60 more bytes. -/
structure Frame where
  cid : UInt32
  body : Bytes
  deriving DecidableEq, Repr

namespace Frame
/-- `init.cmd`, `type` and `cont.seq` are the same byte. -/
def cmd (f : Frame) : Byte := f.body.getD 0 0
/-- `FRAME_TYPE(f) == TYPE_INIT`. -/
def isInit (f : Frame) : Bool := f.cmd &&& 0x80 == 0x80
/-- `FRAME_SEQ`. -/
def seq (f : Frame) : Byte := f.cmd &&& 0x7F
/-- `MSG_LEN`. -/
def len (f : Frame) : Nat := be16 (f.body.getD 1 0) (f.body.getD 2 0)
/-- `init.data`, 57 bytes. -/
def initData (f : Frame) : Bytes := f.body.drop 3
/-- `cont.data`, 59 bytes. -/
def contData (f : Frame) : Bytes := f.body.drop 1
end Frame

/-- `CTAPHID_Channel` (`ctaphid.h:101-110`). `expire` is a `uint32_t`, `total` and `cur` are `uint16_t`. -/
structure Chan where
  cid : UInt32
  total : Nat
  cur : Nat
  expire : Nat
  busy : Bool
  cmd : Byte
  seq : Byte
  data : Bytes
  deriving DecidableEq, Repr

/-- What is observed: frames sent to the host, messages handed over for execution (at the top level, or while waiting
for the user). -/
inductive Ev where
  | sent (f : Frame)
  | msg (cid : UInt32) (cmd : Byte) (data : Bytes)
  | nested (cid : UInt32) (cmd : Byte) (data : Bytes)
  /-- the command APDU of a MSG: four header bytes and `LC` -/
  | apdu (hdr : Bytes) (lc : Nat)
  deriving DecidableEq, Repr

/-- The static variables (`ctaphid.c:9-14`), the frames that arrive during the call, the log (newest first). -/
structure St where
  frame : Frame
  has : Bool
  ch : Chan
  arr : List (Option Frame)
  log : List Ev
  deriving DecidableEq, Repr

/-- The static initialisers and `CTAPHID_Init` (`ctaphid.c:19-24`). -/
def St.init : St := ⟨⟨0, List.replicate 60 0⟩, false, ⟨0, 0, 0, 0, false, 0, 0, List.replicate 1300 0⟩, [], []⟩

def cPing : Byte := 0x81
def cMsg : Byte := 0x83
def cInit : Byte := 0x86
def cWink : Byte := 0x88
def cCbor : Byte := 0x90
def cCancel : Byte := 0x91
def cKeepalive : Byte := 0xBB
def cError : Byte := 0xBF
def eInvalidCmd : Byte := 0x01
def eInvalidLen : Byte := 0x03
def eInvalidSeq : Byte := 0x04
def eTimeout : Byte := 0x05
def eBusy : Byte := 0x06
def eInvalidCid : Byte := 0x0B
/-- `CID_BROADCAST`. -/
def broadcast : UInt32 := 0xFFFFFFFF

/-- `CTAPHID_OutEvent` (`ctaphid.c:26-34`). -/
def outEvent (s : St) (f : Frame) : St := if s.has then s else { s with frame := f, has := true }

/-- A point where the USB interrupt may deliver a frame. -/
def arrive (s : St) : St :=
  match s.arr with
  | [] => s
  | none :: a => { s with arr := a }
  | some f :: a => outEvent { s with arr := a } f

/-- `CTAPHID_SendFrame` (`ctaphid.c:36`): whatever is in `frame` when the USB stack transmits it. -/
def sendFrame (s : St) : St :=
  let s := arrive s
  arrive { s with log := .sent s.frame :: s.log }

/-- The body of an initialisation frame. -/
def initBody (cmd : Byte) (len : Nat) (d : Bytes) : Bytes :=
  [cmd, UInt8.ofNat (len / 256), UInt8.ofNat len] ++ d ++ List.replicate (57 - d.length) 0

/-- The body of a continuation frame. -/
def contBody (seq : Byte) (d : Bytes) : Bytes := seq :: d ++ List.replicate (59 - d.length) 0

/-- The `while` of `CTAPHID_SendResponse` (`ctaphid.c:56-63`); `rest` is what `data + off` points to. The channel of
the frame is not set again. -/
def sendConts (s : St) (rest : Bytes) (seq : Byte) : St :=
  if h : rest = [] then s
  else
    sendConts (sendFrame { s with frame := ⟨s.frame.cid, contBody seq (rest.take 59)⟩ }) (rest.drop 59) (seq + 1)
termination_by rest.length
decreasing_by
  have := List.length_pos_iff.2 h
  simp only [List.length_drop]; omega

/-- `CTAPHID_SendResponse` (`ctaphid.c:38-64`) with the response in front of the message buffer. -/
def sendResponse (s : St) (cid : UInt32) (cmd : Byte) (len : Nat) : C St := do
  let d ← rdRange s.ch.data 0 len
  let s := sendFrame { s with frame := ⟨cid, initBody (0x80 ||| cmd) len (d.take 57)⟩ }
  return sendConts s (d.drop 57) 0

/-- `CTAPHID_SendErrorResponse` (`ctaphid.c:66-75`). -/
def sendError (s : St) (cid : UInt32) (code : Byte) : St :=
  sendFrame { s with frame := ⟨cid, initBody cError 1 [code]⟩ }

/-- `CTAPHID_SendKeepAlive` (`ctaphid.c:238-247`). -/
def keepAlive (s : St) (status : Byte) : St :=
  sendFrame { s with frame := ⟨s.ch.cid, initBody cKeepalive 1 [status]⟩ }

/-- `consume_frame` (`ctaphid.c:233-235`). -/
def consume (s : St) : St := { s with has := false }

/-- What the environment contributes to one call of `CTAPHID_Loop`. -/
structure Env where
  /-- `device_get_tick` -/
  tick : Nat
  /-- `random_buffer` -/
  rnd : UInt32
  /-- the answer of the CTAP layer, if it is called, and the status word of a MSG -/
  resp : Bytes
  sw1 : Byte
  sw2 : Byte
  deriving DecidableEq, Repr

/-- The timeout (`ctaphid.c:128-132`). The error response replaces the received frame, if any. -/
def expired (s : St) (tick : Nat) : St :=
  if s.ch.busy && tick > s.ch.expire then
    sendError { s with ch := { s.ch with busy := false } } s.ch.cid eTimeout
  else s

/-- An initialisation frame (`ctaphid.c:147-169`); `none` means `goto consume_frame`. -/
def takeInit (s : St) (wait : Bool) (tick : Nat) : C (St × Bool) := do
  if !wait && s.ch.busy && s.frame.cmd != cInit then
    return (sendError { s with ch := { s.ch with busy := false } } s.ch.cid eInvalidSeq, false)
  let s := { s with ch := { s.ch with total := s.frame.len } }
  if s.ch.total > 1300 then return (sendError s s.frame.cid eInvalidLen, false)
  let n := min s.ch.total 57
  let data ← wrRange s.ch.data 0 (s.frame.initData.take n)
  return ({ s with ch := { s.ch with cur := n, busy := true, cmd := s.frame.cmd, seq := 0, data := data, expire := (tick + 800) % 2 ^ 32 } }, true)

/-- A continuation frame (`ctaphid.c:170-184`). -/
def takeCont (s : St) : C (St × Bool) := do
  if !s.ch.busy then return (s, false)
  let q := s.ch.seq
  let s := { s with ch := { s.ch with seq := q + 1 } }
  if s.frame.seq != q then
    return (sendError { s with ch := { s.ch with busy := false } } s.ch.cid eInvalidSeq, false)
  let n := min (s.ch.total - s.ch.cur) 59
  let data ← wrRange s.ch.data s.ch.cur (s.frame.contData.take n)
  return ({ s with ch := { s.ch with data := data, cur := s.ch.cur + n } }, true)

/-- `CTAPHID_Loop` up to the dispatch (`ctaphid.c:126-187`): the flag says that a frame was accepted and the message is
complete. -/
def front (s : St) (wait : Bool) (tick : Nat) : C (St × Bool) := do
  let s := expired s tick
  if !s.has then return (s, false)
  if s.frame.cid == 0 || (s.frame.cid == broadcast && s.frame.cmd != cInit) then
    return (consume (sendError s s.frame.cid eInvalidCid), false)
  if s.ch.busy && s.frame.cid != s.ch.cid then
    return (consume (sendError s s.frame.cid eBusy), false)
  let s := { s with ch := { s.ch with cid := s.frame.cid } }
  let (s, go) ← if s.frame.isInit then takeInit s wait tick else takeCont s
  let s := consume s
  if go && s.ch.cur == s.ch.total then
    return ({ s with ch := { s.ch with expire := 2 ^ 32 - 1 } }, true)
  return (s, false)

/-- The complete message. -/
def message (s : St) : Bytes := s.ch.data.take s.ch.total

/-- The dispatch while waiting for the user (`ctaphid.c:187-231`); the flag is `LOOP_CANCEL`. -/
def finishWait (s : St) : C (St × Bool) := do
  let s := { s with log := .nested s.ch.cid s.ch.cmd (message s) :: s.log }
  let c := s.ch.cmd
  let (s, cancel) ←
    if c == cMsg || c == cCbor || c == cInit || c == cPing then pure (sendError s s.ch.cid eBusy, false)
    else if c == cWink then do pure (← sendResponse s s.ch.cid c 0, false)
    else if c == cCancel then pure (s, true)
    else pure (sendError s s.ch.cid eInvalidCmd, false)
  return (consume { s with ch := { s.ch with busy := false } }, cancel)

/-- `CTAPHID_Loop(1)`. -/
def loopWait (s : St) (tick : Nat) : C (St × Bool) := do
  let (s, go) ← front s true tick
  if go then finishWait s else return (s, false)

/-- What happens while the CTAP layer processes a message. -/
inductive Nev where
  | recv (f : Frame)
  | loop (tick : Nat)
  | alive (status : Byte)
  deriving DecidableEq, Repr

/-- Nested processing; nothing more is looked at after a cancellation (`/repo/src/device.c:75-80`). -/
def nested (s : St) : List Nev → C St
  | [] => .ok s
  | .recv f :: l => nested (outEvent s f) l
  | .alive b :: l => nested (keepAlive s b) l
  | .loop t :: l => do
    let (s, cancel) ← loopWait s t
    if cancel then return s else nested s l

/-- `CTAPHID_Execute_Init` (`ctaphid.c:77-91`). The channel id is stored little-endian. -/
def execInit (s : St) (e : Env) : C St := do
  let c := if s.ch.cid == broadcast then e.rnd else s.ch.cid
  let id : Bytes := [c.toUInt8, (c >>> 8).toUInt8, (c >>> 16).toUInt8, (c >>> 24).toUInt8]
  let data ← wrRange s.ch.data 8 (id ++ [2, 1, 0, 0, 4])
  let s := { s with ch := { s.ch with data := data } }
  sendResponse s s.ch.cid s.ch.cmd 17

/-- `CTAPHID_Execute_Msg` (`ctaphid.c:93-113`). `LC` is read from the buffer whatever the length of the message. -/
def execMsg (s : St) (e : Env) (nev : List Nev) : C St := do
  let hdr ← rdRange s.ch.data 0 4
  let a ← rd s.ch.data 5
  let b ← rd s.ch.data 6
  let s := { s with log := .apdu hdr (be16 a b) :: s.log }
  let s ← nested s nev
  let data ← wrRange s.ch.data 0 (e.resp ++ [e.sw1, e.sw2])
  let s := { s with ch := { s.ch with data := data } }
  sendResponse s s.ch.cid s.ch.cmd (e.resp.length + 2)

/-- `CTAPHID_Execute_Cbor` (`ctaphid.c:115-123`). -/
def execCbor (s : St) (e : Env) (nev : List Nev) : C St := do
  let s ← nested s nev
  let data ← wrRange s.ch.data 0 e.resp
  let s := { s with ch := { s.ch with data := data } }
  sendResponse s s.ch.cid cCbor e.resp.length

/-- The dispatch (`ctaphid.c:187-231`). -/
def finish (s : St) (e : Env) (nev : List Nev) : C St := do
  let s := { s with log := .msg s.ch.cid s.ch.cmd (message s) :: s.log }
  let c := s.ch.cmd
  let s ←
    if c == cMsg then
      if s.ch.total < 4 then pure (sendError s s.ch.cid eInvalidLen) else execMsg s e nev
    else if c == cCbor then
      if s.ch.total == 0 then pure (sendError s s.ch.cid eInvalidLen) else execCbor s e nev
    else if c == cInit then execInit s e
    else if c == cPing then sendResponse s s.ch.cid c s.ch.total
    else if c == cWink then sendResponse s s.ch.cid c 0
    else if c == cCancel then pure s
    else pure (sendError s s.ch.cid eInvalidCmd)
  return consume { s with ch := { s.ch with busy := false } }

/-- `CTAPHID_Loop(0)`. -/
def loop (s : St) (e : Env) (nev : List Nev) : C St := do
  let (s, go) ← front s false e.tick
  if go then finish s e nev else return s

/-- Everything that can happen to the transport; `arr` are the frames that arrive during transmissions. -/
inductive Op where
  | recv (f : Frame)
  | loop (e : Env) (nev : List Nev) (arr : List (Option Frame))
  deriving DecidableEq, Repr

/-- One operation. -/
def step (s : St) : Op → C St
  | .recv f => .ok (outEvent s f)
  | .loop e nev arr => loop { s with arr := arr } e nev

/-- A history. -/
def run (s : St) : List Op → C St
  | [] => .ok s
  | op :: h => do run (← step s op) h

end Verif.Hid
