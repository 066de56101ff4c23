import Verif.Model.Apdu
/-
Model of `/repo/interfaces/USB/class/ccid/ccid.c`: the smart-card reader interface.
-/
namespace Verif.Ccid

/-- The header of a command (`ccid_bulkout_data_t`, `/repo/interfaces/USB/class/ccid/ccid.h:13-23`). -/
structure Hdr where
  mt : Byte
  len : Nat
  slot : Byte
  seq : Byte
  p0 : Byte
  p1 : Byte
  p2 : Byte
  deriving DecidableEq, Repr

/-- The states of `bulkout_state` (`/repo/interfaces/USB/class/ccid/usbd_ccid.h:9-15`). -/
inductive Bulk where
  | idle
  | receive
  | discard
  deriving DecidableEq, Repr

/-- What can be observed. -/
inductive Ev where
  /-- `process_apdu` is called for these command bytes -/
  | exec (apdu : Bytes)
  /-- `applets_poweroff` is called -/
  | poweroff
  /-- a message is sent to the host -/
  | sent (m : Bytes)
  deriving DecidableEq, Repr

/-- The variables of `ccid.c:21-31`. `short` is `bulkout_data.abDataShort`, `buf` is `bulkin_data.abData`, which is also
`global_buffer`; `inLen` is `bulkin_data.dwLength`; `slot` and `seq` are those of both response headers, `status` their
`bStatus`. `owner` is `buffer_owner` of `/repo/src/apdu.c`. -/
structure St where
  hdr : Hdr
  short : Bytes
  buf : Bytes
  ab : Nat
  st : Bulk
  has : Nat
  slot : Byte
  seq : Byte
  status : Byte
  inLen : Nat
  owner : Nat
  log : List Ev
  deriving DecidableEq, Repr

/-- `BUFFER_OWNER_CCID` (`/repo/include/apdu.h:86`). -/
def ownerCcid : Nat := 2

/-- `CCID_Init` (`ccid.c:37-45`) after a reset, with a free buffer. -/
def St.init : St :=
  ⟨⟨0, 0, 0, 0, 0, 0, 0⟩, List.replicate 8 0, List.replicate 1342 0, 0, .idle, 0, 0, 0, 1, 0, Apdu.ownerNone, []⟩

def mPowerOn : Byte := 0x62
def mPowerOff : Byte := 0x63
def mSlotStatus : Byte := 0x65
def mXfrBlock : Byte := 0x6F
def mGetParams : Byte := 0x6C
def mResetParams : Byte := 0x6D
def mSetParams : Byte := 0x61
def mEscape : Byte := 0x6B
def mSecure : Byte := 0x69

/-- `CCID_IsShortCommand` (`ccid.c:12`). -/
def St.isShort (s : St) : Bool := s.hdr.len ≤ 8

/-- The header in the first bytes of a packet (`ccid.c:54-55`). -/
def parseHdr (p : Bytes) : C Hdr := do
  let l0 ← rd p 1
  let l1 ← rd p 2
  let l2 ← rd p 3
  let l3 ← rd p 4
  return ⟨← rd p 0, l0.toNat + 256 * l1.toNat + 65536 * l2.toNat + 16777216 * l3.toNat, ← rd p 5, ← rd p 6, ← rd p 7,
    ← rd p 8, ← rd p 9⟩

/-- `memcpy` to `abData + off` (`ccid.c:80`, `92`, `97`). -/
def store (s : St) (off : Nat) (d : Bytes) : C St := do
  if s.isShort then return { s with short := ← wrRange s.short off d }
  else return { s with buf := ← wrRange s.buf off d }

/-- The first packet of a message (`ccid.c:53-86`). -/
def firstPacket (s : St) (p : Bytes) : C St := do
  let h ← parseHdr p
  let n := min (p.length - 10) h.len
  let s := { s with hdr := h, slot := h.slot, seq := h.seq, ab := n }
  let (s, keep) :=
    if h.mt == mXfrBlock then
      let o := Apdu.acquireCas s.owner ownerCcid
      ({ s with owner := o }, Apdu.acquireRead o ownerCcid)
    else (s, s.isShort)
  let s ← if keep then store s 0 ((p.drop 10).take n) else pure s
  if n ≥ h.len then return { s with has := if keep then 1 else 2 }
  else return { s with st := if keep then .receive else .discard }

/-- `CCID_OutEvent` (`ccid.c:47-113`): a packet of at most 255 bytes arrives. -/
def outEvent (s : St) (p : Bytes) : C St :=
  match s.st with
  | .idle => if p.length ≥ 10 then firstPacket s p else .ok s
  | .receive =>
    if s.ab + p.length < s.hdr.len then do
      let s ← store s s.ab p
      return { s with ab := (s.ab + p.length) % 65536 }
    else do
      let s ← store s s.ab (p.take (s.hdr.len - s.ab))
      return { s with st := .idle, has := 1 }
  | .discard =>
    if s.ab + p.length < s.hdr.len then .ok { s with ab := (s.ab + p.length) % 65536 }
    else .ok { s with st := .idle, has := 2 }

/-- Packets that arrive in the middle of other code. -/
def outEvents (s : St) : List Bytes → C St
  | [] => .ok s
  | p :: l => do outEvents (← outEvent s p) l

/-- `CCID_UpdateCommandStatus(cmd_status, CCID_CardStatus())` (`ccid.c:10-11`). -/
def St.fail (s : St) : St := { s with status := 0x40 ||| (s.status &&& 3) }
def St.good (s : St) : St := { s with status := s.status &&& 3 }

/-- `CCID_CheckCommandParams` (`ccid.c:301-334`); 0 means that all checks passed. -/
def check (s : St) (len rfu2 rfu3 : Bool) : St × Byte :=
  if s.hdr.slot ≥ 1 then (s.fail, 5)
  else if len && s.hdr.len != 0 then (s.fail, 1)
  else if rfu2 && (s.hdr.p1 != 0 || s.hdr.p2 != 0) then (s.fail, 8)
  else if rfu3 && (s.hdr.p0 != 0 || s.hdr.p1 != 0 || s.hdr.p2 != 0) then (s.fail, 7)
  else (s.good, 0)

/-- `atr_ccid` (`ccid.c:18-19`). -/
def atr : Bytes := [0x3B, 0xF7, 0x11, 0x00, 0x00, 0x81, 0x31, 0xFE, 0x65, 0x43, 0x61, 0x6E, 0x6F, 0x6B, 0x65, 0x79, 0x99]

/-- The bytes of a response header. -/
def respHdr (s : St) (mt : Byte) (n : Nat) (err sp : Byte) : Bytes :=
  [mt, UInt8.ofNat n, UInt8.ofNat (n / 256), UInt8.ofNat (n / 65536), UInt8.ofNat (n / 16777216), s.slot, s.seq,
   s.status, err, sp]

/-- A response from `bulkin_short` (`ccid.c:395-400`). -/
def sendShort (s : St) (mt : Byte) (err sp : Byte) (d : Bytes) : St :=
  { s with log := .sent (respHdr s mt d.length err sp ++ d) :: s.log }

/-- `PC_to_RDR_IccPowerOn` and its response (`ccid.c:121-138`, `228-234`). -/
def powerOn (s : St) : St :=
  let (s, e) := check s true true false
  if e != 0 then sendShort s 0x80 e 0 []
  else if s.hdr.p0 != 0 then sendShort s.fail 0x80 7 0 []
  else sendShort { s with status := 0, log := .poweroff :: s.log } 0x80 0x81 0 atr

/-- `PC_to_RDR_IccPowerOff` and its response (`ccid.c:146-153`, `244-249`). -/
def powerOff (s : St) : St :=
  let (s, e) := check s true false true
  if e != 0 then sendShort s 0x81 e 0 []
  else sendShort { s with status := 1, log := .poweroff :: s.log } 0x81 0x81 0 []

/-- `PC_to_RDR_GetSlotStatus` and its response (`ccid.c:161-166`). -/
def slotStatus (s : St) : St :=
  let (s, e) := check s true false true
  sendShort s 0x81 (if e != 0 then e else 0x81) 0 []

/-- `PC_to_RDR_GetParameters` and `RDR_to_PC_Parameters` (`ccid.c:214-219`, `258-276`). -/
def getParams (s : St) : St :=
  let (s, e) := check s true false true
  if e != 0 then sendShort s 0x82 e 1 [] else sendShort s 0x82 0x81 1 [0x11, 0x10, 0, 0x15, 0, 0xFE, 0]

/-- What the environment contributes to a call of `CCID_Loop`: the response of `process_apdu` and packets that arrive
before the command is decoded, while it is processed, and before the call ends. -/
structure Env where
  resp : Bytes
  sw1 : Byte
  sw2 : Byte
  a1 : List Bytes
  a2 : List Bytes
  a3 : List Bytes
  deriving DecidableEq, Repr

/-- The response of an XfrBlock (`ccid.c:395-400`): `inLen` bytes of the buffer. -/
def sendData (s : St) (err : Byte) : C St := do
  let d ← rdRange s.buf 0 (s.inLen % 65536)
  return { s with log := .sent (respHdr s 0x80 s.inLen err 0 ++ d) :: s.log }

/-- `PC_to_RDR_XfrBlock` (`ccid.c:175-205`). Without a valid slot the response is whatever the buffer and `inLen`
contain. Time extensions are not modelled. Packets that arrive during the processing of the command do not change the
response, which is written after it. -/
def xfrBlock (s : St) (e : Env) : C St := do
  let short := s.isShort
  let s ← outEvents s e.a1
  let (s, err) := check s false false false
  if err != 0 then sendData s err
  else
    let cmd ← rdRange (if short then s.short else s.buf) 0 (s.hdr.len % 65536)
    match ← Apdu.buildCapdu cmd with
    | none =>
      let b ← wrRange s.buf 0 [0x67, 0x00]
      sendData { s with buf := b, inLen := 2, status := 0 } 0x81
    | some _ =>
      let s := { s with log := .exec cmd :: s.log }
      let s ← outEvents s e.a2
      let b ← wrRange s.buf 0 (e.resp ++ [e.sw1, e.sw2])
      sendData { s with buf := b, inLen := e.resp.length + 2, status := 0 } 0x81

/-- `CCID_Loop` (`ccid.c:336-401`). -/
def loop (s : St) (e : Env) : C St := do
  if s.has == 0 then return s
  let m := s.hdr.mt
  let s ←
    if m == mPowerOn then pure (powerOn s)
    else if m == mPowerOff then pure (powerOff s)
    else if m == mSlotStatus then pure (slotStatus s)
    else if m == mXfrBlock then
      if s.has == 2 then pure (sendShort s 0x80 0x81 0 [0x64, 0x00]) else xfrBlock s e
    else if m == mGetParams then pure (getParams s)
    else if m == mResetParams || m == mSetParams then pure (sendShort s 0x82 0 1 [])
    else if m == mEscape then pure (sendShort s 0x83 0 0 [])
    else if m == mSecure then pure (sendShort s 0x80 0 0 [])
    else pure (sendShort s 0x81 0 0 [])
  let s ← outEvents s e.a3
  return { s with has := 0 }

/-- Everything that can happen to the interface. `finished`: the transmission of a response has ended
(`CCID_InFinished(0)`, `ccid.c:403-413`). `other`: another interface asks for the buffer (`acquire_apdu_buffer`), and
writes to it if it gets it; `otherEnd`: it gives the buffer back. -/
inductive Op where
  | packet (p : Bytes)
  | loop (e : Env)
  | finished
  | other (o : Nat) (b : Bytes)
  | otherEnd (o : Nat)
  deriving DecidableEq, Repr

/-- One operation. -/
def step (s : St) : Op → C St
  | .packet p => outEvent s p
  | .loop e => loop s e
  | .finished => .ok { s with owner := Apdu.releaseCas s.owner ownerCcid }
  | .other o b =>
    let ow := Apdu.acquireCas s.owner o
    if Apdu.acquireRead ow o then do return { s with owner := ow, buf := ← wrRange s.buf 0 b }
    else .ok { s with owner := ow }
  | .otherEnd o => .ok { s with owner := Apdu.releaseCas s.owner o }

/-- A history. -/
def run (s : St) : List Op → C St
  | [] => .ok s
  | op :: h => do run (← step s op) h

end Verif.Ccid
