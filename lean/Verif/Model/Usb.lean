import Verif.Model.WebUsb
/-
Model of the USB device stack: `/repo/interfaces/USB/core/src/usbd_core.c`, `usbd_ctlreq.c`, `usbd_ioreq.c`, the descriptors in
`/repo/interfaces/USB/device/usbd_desc.c` and the distribution to the classes in `/repo/interfaces/USB/device/usbd_canokey.c`.

The driver below (`USBD_LL_*`) is platform code. It is modelled like `/repo/virt-card/usb-dummy.c`: a transmission puts one packet
of at most `mps` bytes into the FIFO at once; when the host has taken it, `USBD_LL_DataInStage` is called with the address behind
it. A reception takes one packet, of which at most the size given to `USBD_LL_PrepareReceive` is stored, and calls
`USBD_LL_DataOutStage` with the address behind it. A SETUP packet cancels both and clears a stall of endpoint 0.
-/
namespace Verif.Usb

/-- `USBD_STATE_*` (`usbd_def.h:83-86`). -/
inductive Dev where
  | dflt
  | addressed
  | configured
  | suspended
  deriving DecidableEq, Repr

/-- `USBD_EP0_*` (`usbd_def.h:89-94`). -/
inductive E0 where
  | idle
  | setup
  | dataIn
  | dataOut
  | statusIn
  | statusOut
  deriving DecidableEq, Repr

/-- What a pointer given to the driver points to: memory that does not change, or `global_buffer`. -/
inductive Src where
  | const (d : Bytes)
  | shared
  deriving DecidableEq, Repr

/-- `USBD_SetupReqTypedef` (`usbd_def.h:104-110`). -/
structure Req where
  bm : Byte
  br : Byte
  value : UInt16
  index : UInt16
  length : UInt16
  deriving DecidableEq, Repr

/-- The classes with endpoints of their own. -/
inductive Cls where
  | ctap
  | kbd
  | ccid
  deriving DecidableEq, Repr

/-- The tables filled by the platform (`usb_device.h:8-27`), the build parameters and what the descriptors contain of the
configuration of the device. -/
structure Cfg where
  ifCtap : Byte
  ifWeb : Byte
  ifCcid : Byte
  ifKbd : Byte
  epCtap : Byte
  epCcid : Byte
  epKbd : Byte
  szCtap : Byte
  szCcid : Byte
  szKbd : Byte
  /-- `USB_MAX_EP0_SIZE` (`/repo/include/device-config-default.h:5`) -/
  mps : Nat
  vid : UInt16
  pid : UInt16
  /-- `fill_sn` -/
  serial : Byte × Byte × Byte × Byte
  /-- `cfg_is_webusb_landing_enable` -/
  landing : Bool
  deriving DecidableEq, Repr

/-- What can be observed. -/
inductive Ev where
  /-- a packet is put into the FIFO of endpoint 0 -/
  | tx (d : Bytes)
  /-- endpoint 0 is stalled -/
  | stall
  /-- the classes are initialised -/
  | init
  /-- a class is told that its packet has been sent, or that one has been received -/
  | classIn (c : Cls)
  | classOut (c : Cls)
  /-- the data of a WebUSB command is complete -/
  | rxReady
  deriving DecidableEq, Repr

/-- `USBD_HandleTypeDef` (`usbd_def.h:163-181`), the driver, `global_buffer` with its owner, and the variables of `webusb.c`. -/
structure St where
  dev : Dev
  old : Dev
  config : Nat
  wakeup : Bool
  e0 : E0
  /-- `ep0_data_len` -/
  dataLen : Nat
  /-- `ep_in[0]` -/
  inTotal : Nat
  inRem : Nat
  /-- `ep_out[0].rem_length` -/
  outRem : Nat
  /-- the driver: is a packet waiting to be taken, and what comes behind it -/
  pend : Bool
  inSrc : Src
  inOff : Nat
  /-- the driver: where to store the next packet (`none` is the null pointer) and its size, if it is prepared to receive -/
  rx : Option (Option Nat × Nat)
  /-- stalled endpoints other than 0 -/
  halted : List Byte
  /-- `idle_state` of the two HID classes -/
  idleCtap : Nat
  idleKbd : Nat
  buf : Bytes
  owner : Nat
  web : WebUsb.WS
  webSize : Nat
  keep : Nat
  log : List Ev
  deriving DecidableEq, Repr

/-- After `usb_device_init` (`usb_device.c:12-18`) and `USBD_LL_Reset` (`usbd_core.c:284-300`). The variables of `webusb.c` have
their static initial values (`state = 0`). -/
def St.init : St :=
  ⟨.dflt, .dflt, 0, false, .idle, 0, 0, 0, 0, false, .const [], 0, none, [], 0, 0, List.replicate 1342 0, Apdu.ownerNone, .sending, 0, 0, []⟩

/-- Reading through such a pointer. -/
def rdSrc (s : St) (p : Src) (off n : Nat) : C Bytes :=
  match p with
  | .const d => rdRange d off n
  | .shared => rdRange s.buf off n

/-- `USBD_LL_Transmit` for endpoint 0. -/
def transmit (c : Cfg) (s : St) (p : Src) (off n : Nat) : C St := do
  let d ← rdSrc s p off (min n c.mps)
  return { s with pend := true, inSrc := p, inOff := off + min n c.mps, log := .tx d :: s.log }

/-- `USBD_LL_PrepareReceive` for endpoint 0. -/
def prepareRx (s : St) (p : Option Nat) (n : Nat) : St := { s with rx := some (p, n) }

/-- `USBD_CtlSendData` (`usbd_ioreq.c:29-39`). -/
def ctlSendData (c : Cfg) (s : St) (p : Src) (len : Nat) : C St :=
  transmit c { s with e0 := .dataIn, inTotal := len, inRem := len } p 0 len

/-- `USBD_CtlPrepareRx` (`usbd_ioreq.c:64-73`) with `global_buffer`. -/
def ctlPrepareRx (s : St) (len : Nat) : St :=
  prepareRx { s with e0 := .dataOut, outRem := len } (some 0) len

/-- `USBD_CtlSendStatus` (`usbd_ioreq.c:93-102`). -/
def ctlSendStatus (c : Cfg) (s : St) : C St := transmit c { s with e0 := .statusIn } (.const []) 0 0

/-- `USBD_CtlReceiveStatus` (`usbd_ioreq.c:110-118`). -/
def ctlReceiveStatus (s : St) : St := prepareRx { s with e0 := .statusOut } none 0

/-- `USBD_CtlError` (`usbd_ctlreq.c:537-540`). -/
def ctlError (s : St) : St := { s with log := .stall :: s.log }

/-! ### Descriptors (`usbd_desc.c`) -/

def lo (x : UInt16) : Byte := x.toUInt8
def hi (x : UInt16) : Byte := (x >>> 8).toUInt8

/-- `USBD_FS_DeviceDesc` (`usbd_desc.c:58-77`). -/
def deviceDesc (c : Cfg) : Bytes :=
  [0x12, 0x01, 0x10, 0x02, 0x00, 0x00, 0x00, UInt8.ofNat c.mps, lo c.vid, hi c.vid, lo c.pid, hi c.pid, 0x00, 0x01, 1, 2, 3, 1]

/-- `USBD_FS_IfDesc_CTAPHID` (`usbd_desc.c:79-112`). -/
def ifCtapDesc : Bytes :=
  [0x09, 0x04, 0xFF, 0x00, 0x02, 0x03, 0x00, 0x00, 0x10,
   0x09, 0x21, 0x11, 0x01, 0x00, 0x01, 0x22, 34, 0x00,
   0x07, 0x05, 0xFF, 0x03, 0xFF, 0x00, 0x02,
   0x07, 0x05, 0x7F, 0x03, 0xFF, 0x00, 0x05]

/-- `USBD_FS_IfDesc_KBDHID` (`usbd_desc.c:114-147`). -/
def ifKbdDesc : Bytes :=
  [0x09, 0x04, 0xFF, 0x00, 0x02, 0x03, 0x00, 0x00, 0x13,
   0x09, 0x21, 0x11, 0x01, 0x00, 0x01, 0x22, 87, 0x00,
   0x07, 0x05, 0xFF, 0x03, 0xFF, 0x00, 0x0A,
   0x07, 0x05, 0x7F, 0x03, 0xFF, 0x00, 0x05]

/-- `USBD_FS_IfDesc_WEBUSB` (`usbd_desc.c:149-160`). -/
def ifWebDesc : Bytes := [0x09, 0x04, 0xFF, 0x00, 0x00, 0xFF, 0xFF, 0xFF, 0x12]

/-- `USBD_FS_IfDesc_CCID` (`usbd_desc.c:162-215`); `CCID_NUMBER_OF_SLOTS` is 1, `ABDATA_SIZE` 1342, the header 10
(`ccid.h:7-12`). -/
def ifCcidDesc : Bytes :=
  [0x09, 0x04, 0xFF, 0x00, 0x02, 0x0B, 0x00, 0x00, 0x11,
   0x36, 0x21, 0x10, 0x01, 0x00, 0x07, 0x02, 0x00, 0x00, 0x00, 0xA0, 0x0F, 0x00, 0x00, 0xA0, 0x0F, 0x00, 0x00, 0x00,
   0x00, 0xB0, 0x04, 0x00, 0x00, 0xB0, 0x04, 0x00, 0x00, 0x3E, 0x05, 0x00, 0x00, 0x00, 0x00, 0x00, 0x00,
   0x00, 0x00, 0x00, 0x00, 0xFE, 0x00, 0x04, 0x00, 0x48, 0x05, 0x00, 0x00, 0xFF, 0xFF, 0x00, 0x00, 0x00, 0x01,
   0x07, 0x05, 0xFF, 0x02, 0xFF, 0x00, 0x00,
   0x07, 0x05, 0x7F, 0x02, 0xFF, 0x00, 0x00]

/-- `USBD_FS_CfgDescHeader` (`usbd_desc.c:217-226`). -/
def cfgHeader : Bytes := [0x09, 0x02, 0x00, 0x00, 0x00, 0x01, 0x00, 0x80, 0x32]

/-- `patch_interface_descriptor` (`usbd_desc.c:323-340`), on the bytes from `desc` to `desc_end`. A descriptor of length 0 would
be patched for ever; it does not occur. Fewer than five bytes left would be read past the end; that is `oob`. -/
def patch (ifnum epin epout size : Byte) (d : Bytes) : C Bytes :=
  match d with
  | [] => .ok []
  | l :: rest =>
    if l = 0 ∨ rest.length < l.toNat - 1 then .error .oob
    else do
      let one := d.take l.toNat
      let t ← rd one 1
      let one ←
        if t = 4 then wr one 2 ifnum
        else if t = 5 then do
          let one ← wr one 2 (if (← rd one 2) = 0xFF then epin else epout)
          wr one 4 size
        else pure one
      let more ← patch ifnum epin epout size (rest.drop (l.toNat - 1))
      return one ++ more
termination_by d.length
decreasing_by
  simp only [List.length_drop, List.length_cons]; omega

/-- `USBD_DescriptorInit` (`usbd_desc.c:342-375`): what is written at the start of the shared buffer. -/
def configDesc (c : Cfg) : C Bytes := do
  let a ← patch c.ifCtap (0x80 ||| c.epCtap) c.epCtap c.szCtap ifCtapDesc
  let b ← patch c.ifWeb 0 0 0 ifWebDesc
  let d ← patch c.ifCcid (0x80 ||| c.epCcid) c.epCcid c.szCcid ifCcidDesc
  let k ← if c.ifKbd ≠ 0xFF then patch c.ifKbd (0x80 ||| c.epKbd) c.epKbd c.szKbd ifKbdDesc else pure []
  let all := cfgHeader ++ a ++ b ++ d ++ k
  let all ← wr all 4 (if c.ifKbd ≠ 0xFF then 4 else 3)
  let all ← wr all 2 (UInt8.ofNat all.length)
  wr all 3 (UInt8.ofNat (all.length / 256))

/-- The length announced by `USBD_ConfigurationDescriptor` (`usbd_desc.c:384-388`). -/
def configLen : Nat := 9 + ifCcidDesc.length + ifWebDesc.length + ifKbdDesc.length + ifCtapDesc.length

/-- `USBD_FS_BOSDesc` (`usbd_desc.c:229-261`) with byte 28 (`usbd_desc.c:419`). -/
def bosDesc (c : Cfg) : Bytes :=
  [0x05, 0x0F, 0x39, 0x00, 0x02,
   0x18, 0x10, 0x05, 0x00, 0x38, 0xB6, 0x08, 0x34, 0xA9, 0x09, 0xA0, 0x47, 0x8B, 0xFD, 0xA0, 0x76, 0x88, 0x15, 0xB6, 0x65, 0x00, 0x01,
   0x01, if c.landing then 1 else 0,
   0x1C, 0x10, 0x05, 0x00, 0xDF, 0x60, 0xDD, 0xD8, 0x89, 0x45, 0xC7, 0x4C, 0x9C, 0xD2, 0x65, 0x9D, 0x9E, 0x64, 0x8A, 0x9F,
   0x00, 0x00, 0x03, 0x06, 0xB2, 0x00, 0x02, 0x00]

/-- Letters with a zero byte after each. -/
def wide (s : List Char) : Bytes := s.flatMap fun ch => [UInt8.ofNat ch.toNat, 0]

/-- `USBD_FS_MSOS20Desc` (`usbd_desc.c:263-305`). -/
def msosDesc : Bytes :=
  [0x0A, 0x00, 0x00, 0x00, 0x00, 0x00, 0x03, 0x06, 0xB2, 0x00,
   0x08, 0x00, 0x01, 0x00, 0x00, 0x00, 0xA8, 0x00,
   0x08, 0x00, 0x02, 0x00, 0x01, 0x00, 0xA0, 0x00,
   0x14, 0x00, 0x03, 0x00, 0x57, 0x49, 0x4E, 0x55, 0x53, 0x42, 0, 0, 0, 0, 0, 0, 0, 0, 0, 0,
   0x84, 0x00, 0x04, 0x00, 0x07, 0x00, 0x2A, 0x00] ++ wide "DeviceInterfaceGUIDs".toList ++ [0, 0] ++
  [0x50, 0x00] ++ wide "{244EB29E-E090-4E49-81FE-1F20F8D3B8F4}".toList ++ [0, 0, 0, 0]

/-- `USBD_FS_URL_DESCRIPTOR` (`usbd_desc.c:307-312`). -/
def urlDesc : Bytes := [23, 0x03, 0x01] ++ "console.canokeys.org".toList.map fun ch => UInt8.ofNat ch.toNat

/-- `USBD_LangIDDesc` (`usbd_desc.c:315-320`). -/
def langDesc : Bytes := [0x04, 0x03, 0x09, 0x04]

/-- `USBD_GetString` (`usbd_ctlreq.c:550-562`): what is written at the start of the shared buffer. The strings are shorter than 127
characters, so the 8-bit counters do not overflow. -/
def stringDesc (s : List Char) : Bytes := [UInt8.ofNat (s.length * 2 + 2), 0x03] ++ wide s

/-- `%02X` -/
def hexByte (b : Byte) : List Char :=
  let dig := fun n : Nat => if n < 10 then Char.ofNat (48 + n) else Char.ofNat (55 + n)
  [dig (b.toNat / 16), dig (b.toNat % 16)]

/-- `USBD_SerialStrDescriptor` (`usbd_desc.c:407-414`). -/
def serialStr (c : Cfg) : List Char := hexByte c.serial.1 ++ hexByte c.serial.2.1 ++ hexByte c.serial.2.2.1 ++ hexByte c.serial.2.2.2

/-- `USBD_UsrStrDescriptor` (`usbd_desc.c:428-445`). The index is cut to eight bits. -/
def userStr (i : Byte) : Option (List Char) :=
  if i = 0x10 then some "FIDO2/U2F".toList
  else if i = 0x11 then some "OpenPGP PIV OATH".toList
  else if i = 0x12 then some "WebUSB".toList
  else if i = 0x13 then some "Keyboard".toList
  else none

/-- A descriptor composed in the shared buffer. -/
def compose (s : St) (d : Bytes) : C St := do return { s with buf := ← wrRange s.buf 0 d }

/-- `USBD_GetDescriptor` (`usbd_ctlreq.c:227-277`) up to the sending: the state, and the descriptor with its length. `none` after
`USBD_CtlError`. -/
def descriptor (c : Cfg) (s : St) (r : Req) : C (Option (St × Src × Nat)) := do
  let str := fun (x : List Char) => do
    let s ← compose s (stringDesc x)
    return some (s, Src.shared, x.length * 2 + 2)
  let t := hi r.value
  if t = 0x0F then
    let s ← compose s (bosDesc c)
    return some (s, .shared, (bosDesc c).length)
  else if t = 0x01 then return some (s, .const (deviceDesc c), (deviceDesc c).length)
  else if t = 0x02 then
    let d ← configDesc c
    let s ← compose s d
    return some (s, .shared, configLen)
  else if t = 0x03 then
    let i := lo r.value
    if i = 0 then return some (s, .const langDesc, langDesc.length)
    else if i = 1 then str "canokeys.org".toList
    else if i = 2 then str "CanoKey".toList
    else if i = 3 then str (serialStr c)
    else
      match userStr i with
      | some x => str x
      | none => return some (s, .const [], 0)
  else return none

/-- The end of `USBD_GetDescriptor` (`usbd_ctlreq.c:273-276`), also in `USBD_VendorClsReq`. -/
def sendDesc (c : Cfg) (s : St) (p : Src) (len : Nat) (r : Req) : C St :=
  if len ≠ 0 ∧ r.length ≠ 0 then ctlSendData c s p (min len r.length.toNat) else .ok s

/-- `USBD_GetDescriptor`. -/
def getDescriptor (c : Cfg) (s : St) (r : Req) : C St := do
  match ← descriptor c s r with
  | none => return ctlError s
  | some (s, p, len) => sendDesc c s p len r

/-- `USBD_VendorClsReq` (`usbd_ctlreq.c:286-323`). -/
def vendorReq (c : Cfg) (s : St) (r : Req) : C St :=
  if r.br = 1 then
    if r.value = 1 ∧ r.index = 2 then sendDesc c s (.const urlDesc) urlDesc.length r else .ok (ctlError s)
  else if r.br = 2 then
    if r.index = 7 then sendDesc c s (.const msosDesc) msosDesc.length r else .ok (ctlError s)
  else .ok (ctlError s)

/-! ### Classes -/

/-- `report_desc` of `usbd_ctaphid.c:11-28`. -/
def ctapReport : Bytes :=
  [0x06, 0xD0, 0xF1, 0x09, 0x01, 0xA1, 0x01, 0x09, 0x20, 0x15, 0x00, 0x26, 0xFF, 0x00, 0x75, 0x08, 0x95, 0x40, 0x81, 0x02,
   0x09, 0x21, 0x15, 0x00, 0x26, 0xFF, 0x00, 0x75, 0x08, 0x95, 0x40, 0x91, 0x02, 0xC0]

/-- `USBD_CTAPHID_Desc` (`usbd_ctaphid.c:30-39`). -/
def ctapHidDesc : Bytes := [0x09, 0x21, 0x11, 0x01, 0x00, 0x01, 0x22, 34, 0x00]

/-- `report_desc` of `usbd_kbdhid.c:11-57`. -/
def kbdReport : Bytes :=
  [0x05, 0x01, 0x09, 0x06, 0xA1, 0x01, 0x85, 0x01, 0x05, 0x07, 0x19, 0xE0, 0x29, 0xE7, 0x15, 0x00, 0x25, 0x01, 0x75, 0x01,
   0x95, 0x08, 0x81, 0x02, 0x95, 0x01, 0x75, 0x08, 0x81, 0x03, 0x95, 0x05, 0x75, 0x01, 0x05, 0x08, 0x19, 0x01, 0x29, 0x05,
   0x91, 0x02, 0x95, 0x01, 0x75, 0x03, 0x91, 0x03, 0x95, 0x05, 0x75, 0x08, 0x15, 0x00, 0x25, 0x65, 0x05, 0x07, 0x19, 0x00,
   0x29, 0x65, 0x81, 0x00, 0xC0, 0x05, 0x0C, 0x09, 0x01, 0xA1, 0x01, 0x85, 0x02, 0x15, 0x00, 0x25, 0x01, 0x75, 0x08, 0x95, 0x01,
   0x0A, 0xAE, 0x01, 0x81, 0x06, 0xC0]

/-- `USBD_KBDHID_Desc` (`usbd_kbdhid.c:59-68`). -/
def kbdHidDesc : Bytes := [0x09, 0x21, 0x11, 0x01, 0x00, 0x01, 0x22, 87, 0x00]

/-- `USBD_CTAPHID_Setup` (`usbd_ctaphid.c:51-90`) and `USBD_KBDHID_Setup` (`usbd_kbdhid.c:82-121`), which differ in the two
descriptors and in the variable set by SET_IDLE. -/
def hidSetup (c : Cfg) (s : St) (r : Req) (report desc : Bytes) (idle : St → Nat → St) : C St :=
  if r.bm &&& 0x60 = 0x20 then
    if r.br = 0x0A then .ok (idle s (hi r.value).toNat) else .ok (ctlError s)
  else if r.bm &&& 0x60 = 0x00 then
    if r.br = 0x06 then
      if hi r.value = 0x22 then ctlSendData c s (.const report) (min report.length r.length.toNat)
      else if hi r.value = 0x21 then ctlSendData c s (.const desc) (min desc.length r.length.toNat)
      else .ok (ctlError s)
    else .ok (ctlError s)
  else .ok s

/-- The value of `state` (`webusb.c:7-14`, a signed byte). -/
def wsByte : WebUsb.WS → Byte
  | .idle => 0xFF
  | .process => 1
  | .sending => 0
  | .sent => 2
  | .recving => 3
  | .hold => 4

/-- `USBD_WEBUSB_Setup` (`webusb.c:33-81`). -/
def webSetup (c : Cfg) (s : St) (r : Req) (tick : Nat) : C St :=
  let s := { s with keep := tick }
  if r.br = 0 then
    if s.web ≠ .idle ∧ s.web ≠ .hold then .ok (ctlError s)
    else
      let s := { s with owner := Apdu.acquireCas s.owner WebUsb.ownerWeb }
      if !Apdu.acquireRead s.owner WebUsb.ownerWeb then .ok (ctlError s)
      else
        let s := { s with web := .hold }
        if r.length.toNat > 1340 then .ok (ctlError s)
        else
          let s := ctlPrepareRx s r.length.toNat
          .ok { s with webSize := r.length.toNat, web := .recving }
  else if r.br = 1 then
    if s.web = .sending then do
      let s ← ctlSendData c s .shared (min s.webSize r.length.toNat)
      return { s with web := .sent }
    else .ok (ctlError s)
  else if r.br = 2 then ctlSendData c s (.const [wsByte s.web]) 1
  else .ok (ctlError s)

/-- A byte as a `uint16_t`. -/
def wideByte (b : Byte) : UInt16 := b.toUInt16

/-- `USBD_CANOKEY_Setup` (`usbd_canokey.c:38-54`). -/
def classSetup (c : Cfg) (s : St) (r : Req) (tick : Nat) : C St :=
  let rec' := r.bm &&& 0x03
  if (rec' = 1 ∧ r.index = wideByte c.ifCtap) ∨ (rec' = 2 ∧ (r.index = wideByte (0x80 ||| c.epCtap) ∨ r.index = wideByte c.epCtap)) then
    hidSetup c s r ctapReport ctapHidDesc (fun s v => { s with idleCtap := v })
  else if (rec' = 1 ∧ r.index = wideByte c.ifKbd) ∨ (rec' = 2 ∧ (r.index = wideByte (0x80 ||| c.epKbd) ∨ r.index = wideByte c.epKbd)) then
    hidSetup c s r kbdReport kbdHidDesc (fun s v => { s with idleKbd := v })
  else if rec' = 1 ∧ r.index = wideByte c.ifWeb then webSetup c s r tick
  else .ok (ctlError s)

/-- `USBD_CANOKEY_Init` (`usbd_canokey.c:19-29`), of which the WebUSB part (`webusb.c:22-31`) is modelled. -/
def classInit (s : St) : St := { s with web := .idle, keep := 0, log := .init :: s.log }

/-! ### Requests (`usbd_ctlreq.c`) -/

/-- `USBD_SetAddress` (`usbd_ctlreq.c:332-351`). -/
def setAddress (c : Cfg) (s : St) (r : Req) : C St :=
  if r.index = 0 ∧ r.length = 0 then
    if s.dev = .configured then .ok (ctlError s)
    else do
      let s ← ctlSendStatus c s
      return { s with dev := if r.value &&& 0x7F ≠ 0 then .addressed else .dflt }
  else .ok (ctlError s)

/-- `USBD_SetConfig` (`usbd_ctlreq.c:360-412`). `Init` and `DeInit` of the class return 0. -/
def setConfig (c : Cfg) (s : St) (r : Req) : C St :=
  let i := (lo r.value).toNat
  if i > 1 then .ok (ctlError s)
  else
    match s.dev with
    | .addressed =>
      if i ≠ 0 then ctlSendStatus c (classInit { s with config := i, dev := .configured }) else ctlSendStatus c s
    | .configured =>
      if i = 0 then ctlSendStatus c { s with dev := .addressed, config := i }
      else if i ≠ s.config then ctlSendStatus c (classInit { s with config := i })
      else ctlSendStatus c s
    | _ => .ok (ctlError s)

/-- `USBD_GetConfig` (`usbd_ctlreq.c:421-441`). -/
def getConfig (c : Cfg) (s : St) (r : Req) : C St :=
  if r.length ≠ 1 then .ok (ctlError s)
  else
    match s.dev with
    | .addressed => ctlSendData c s (.const [0]) 1
    | .configured => ctlSendData c s (.const [UInt8.ofNat s.config]) 1
    | _ => .ok (ctlError s)

/-- `USBD_GetStatus` (`usbd_ctlreq.c:450-473`). -/
def getStatus (c : Cfg) (s : St) : C St :=
  match s.dev with
  | .addressed | .configured => ctlSendData c s (.const [if s.wakeup then 2 else 0, 0]) 2
  | _ => .ok (ctlError s)

/-- `USBD_SetFeature` (`usbd_ctlreq.c:482-489`). -/
def setFeature (c : Cfg) (s : St) (r : Req) (tick : Nat) : C St :=
  if r.value = 1 then do
    let s ← classSetup c { s with wakeup := true } r tick
    ctlSendStatus c s
  else .ok s

/-- `USBD_ClrFeature` (`usbd_ctlreq.c:498-513`). -/
def clrFeature (c : Cfg) (s : St) (r : Req) (tick : Nat) : C St :=
  match s.dev with
  | .addressed | .configured =>
    if r.value = 1 then do
      let s ← classSetup c { s with wakeup := false } r tick
      ctlSendStatus c s
    else .ok s
  | _ => .ok (ctlError s)

/-- `USBD_StdDevReq` (`usbd_ctlreq.c:44-82`). -/
def stdDevReq (c : Cfg) (s : St) (r : Req) (tick : Nat) : C St :=
  if r.br = 0x06 then getDescriptor c s r
  else if r.br = 0x05 then setAddress c s r
  else if r.br = 0x09 then setConfig c s r
  else if r.br = 0x08 then getConfig c s r
  else if r.br = 0x00 then getStatus c s
  else if r.br = 0x03 then setFeature c s r tick
  else if r.br = 0x01 then clrFeature c s r tick
  else .ok (ctlError s)

/-- `USBD_StdItfReq` (`usbd_ctlreq.c:91-111`). -/
def stdItfReq (c : Cfg) (s : St) (r : Req) (tick : Nat) : C St :=
  if s.dev = .configured then
    if (lo r.index).toNat < 4 then do
      let s ← classSetup c s r tick
      if r.length = 0 then ctlSendStatus c s else return s
    else .ok (ctlError s)
  else .ok (ctlError s)

/-- `USBD_StdEPReq` (`usbd_ctlreq.c:120-219`). -/
def stdEpReq (c : Cfg) (s : St) (r : Req) (tick : Nat) : C St :=
  let ep := lo r.index
  if (ep &&& 0x7F).toNat ≥ 4 then .ok s
  else if r.bm &&& 0x60 = 0x20 then classSetup c s r tick
  else if r.br = 0x03 then
    match s.dev with
    | .addressed => .ok (if ep ≠ 0 ∧ ep ≠ 0x80 then { s with halted := ep :: s.halted } else s)
    | .configured => do
      let s := if r.value = 0 ∧ ep ≠ 0 ∧ ep ≠ 0x80 then { s with halted := ep :: s.halted } else s
      let s ← classSetup c s r tick
      ctlSendStatus c s
    | _ => .ok (ctlError s)
  else if r.br = 0x01 then
    match s.dev with
    | .addressed => .ok (if ep ≠ 0 ∧ ep ≠ 0x80 then { s with halted := ep :: s.halted } else s)
    | .configured =>
      if r.value = 0 then do
        let s ← if ep &&& 0x7F ≠ 0 then classSetup c { s with halted := s.halted.filter (· ≠ ep) } r tick else pure s
        ctlSendStatus c s
      else .ok s
    | _ => .ok (ctlError s)
  else if r.br = 0x00 then
    match s.dev with
    | .addressed => .ok (if ep &&& 0x7F ≠ 0 then { s with halted := ep :: s.halted } else s)
    | .configured => ctlSendData c s (.const [if ep ∈ s.halted then 1 else 0, 0]) 2
    | _ => .ok (ctlError s)
  else .ok s

/-! ### Events (`usbd_core.c`) -/

/-- `SWAPBYTE` (`usbd_def.h:183`). -/
def word (p : Bytes) (i : Nat) : C UInt16 := do
  return (← rd p i).toUInt16 + (← rd p (i + 1)).toUInt16 <<< 8

/-- `USBD_ParseSetupRequest` (`usbd_ctlreq.c:522-528`). The packet given by the driver has eight bytes. -/
def parse (p : Bytes) : C Req := do
  return ⟨← rd p 0, ← rd p 1, ← word p 2, ← word p 4, ← word p 6⟩

/-- `USBD_LL_SetupStage` (`usbd_core.c:172-202`); `tick` is the time. -/
def setupStage (c : Cfg) (s : St) (r : Req) (tick : Nat) : C St :=
  let s := { s with pend := false, rx := none, e0 := .setup, dataLen := r.length.toNat }
  if r.bm = 0xC0 then vendorReq c s r
  else if r.bm &&& 0x1F = 0 then stdDevReq c s r tick
  else if r.bm &&& 0x1F = 1 then stdItfReq c s r tick
  else if r.bm &&& 0x1F = 2 then stdEpReq c s r tick
  else .ok (ctlError s)

/-- `USBD_WEBUSB_TxSent` (`webusb.c:114-124`). -/
def txSent (s : St) : St := if s.web = .sent then { s with web := .hold } else s

/-- `USBD_LL_DataInStage` (`usbd_core.c:242-275`) for endpoint 0, after the host has taken a packet. -/
def dataInStage (c : Cfg) (s : St) : C St :=
  let s := { s with pend := false }
  if s.e0 ≠ .dataIn then .ok s
  else if s.inRem > c.mps then do
    let s := { s with inRem := s.inRem - c.mps }
    let s ← transmit c s s.inSrc s.inOff s.inRem
    return prepareRx s none 0
  else if s.inTotal % c.mps = 0 ∧ s.inTotal ≥ c.mps ∧ s.inTotal < s.dataLen then do
    let s ← transmit c s (.const []) 0 0
    return prepareRx { s with dataLen := 0 } none 0
  else
    let s := if s.dev = .configured then txSent s else s
    .ok (ctlReceiveStatus s)

/-- A packet of the host on endpoint 0: it is stored, then `USBD_LL_DataOutStage` (`usbd_core.c:211-233`), with
`USBD_WEBUSB_RxReady` (`webusb.c:126-133`), is called. -/
def dataOutStage (c : Cfg) (s : St) (d : Bytes) : C St :=
  match s.rx with
  | none => .ok s
  | some (p, n) => do
    let d := d.take (min n c.mps)
    let buf ← match p with
      | some off => wrRange s.buf off d
      | none => pure s.buf
    let p := p.map (· + d.length)
    let s := { s with rx := none, buf := buf }
    if s.e0 ≠ .dataOut then return s
    else if s.outRem > c.mps then
      let s := { s with outRem := s.outRem - c.mps }
      return prepareRx s p (min s.outRem c.mps)
    else
      let s := if s.dev = .configured then { s with web := .process, log := .rxReady :: s.log } else s
      ctlSendStatus c s

/-- Everything that can happen. -/
inductive Op where
  /-- a SETUP packet of the host -/
  | setup (p : Bytes) (tick : Nat)
  /-- the host takes a packet of endpoint 0 -/
  | taken
  /-- the host sends a data packet to endpoint 0 -/
  | out (d : Bytes)
  /-- a packet of another endpoint has been taken or has arrived -/
  | epIn (n : Byte)
  | epOut (n : Byte)
  /-- `USBD_LL_Reset`, `USBD_LL_Suspend`, `USBD_LL_Resume`, `USBD_LL_DevDisconnected` -/
  | reset
  | suspend
  | resume
  | disconnect
  /-- something else in the device writes to the shared buffer, takes it, or gives it back -/
  | write (off : Nat) (d : Bytes)
  | acquire (o : Nat)
  | release (o : Nat)
  /-- the main loop executes a WebUSB command, which gives this response, or notices the idle timeout -/
  | webDone (resp : Bytes)
  | webTimeout (tick : Nat)
  deriving DecidableEq, Repr

/-- The class an endpoint belongs to (`usbd_canokey.c:56-70`). -/
def classOf (c : Cfg) (n : Byte) (mask : Byte) : Option Cls :=
  if n = mask &&& c.epCtap then some .ctap
  else if n = mask &&& c.epKbd then some .kbd
  else if n = mask &&& c.epCcid then some .ccid
  else none

/-- One operation. Reset: `usbd_core.c:284-300`; suspend and resume: `320-336`; disconnection: `360-366`; other endpoints:
`229-231` and `271-273`; the main loop: `webusb.c:83-112`. -/
def step (c : Cfg) (s : St) : Op → C St
  | .setup p tick => do setupStage c s (← parse p) tick
  | .taken => if s.pend then dataInStage c s else .ok s
  | .out d => dataOutStage c s d
  | .epIn n =>
    if s.dev = .configured then
      match classOf c n 0x7F with
      | some k => .ok { s with log := .classIn k :: s.log }
      | none => .ok s
    else .ok s
  | .epOut n =>
    if s.dev = .configured then
      match classOf c n 0xFF with
      | some k => .ok { s with log := .classOut k :: s.log }
      | none => .ok s
    else .ok s
  | .reset => .ok { s with dev := .dflt, pend := false, rx := none }
  | .suspend => .ok { s with old := s.dev, dev := .suspended }
  | .resume => .ok { s with dev := s.old }
  | .disconnect => .ok { s with dev := .dflt }
  | .write off d => do return { s with buf := ← wrRange s.buf off d }
  | .acquire o => .ok { s with owner := Apdu.acquireCas s.owner o }
  | .release o => .ok { s with owner := Apdu.releaseCas s.owner o }
  | .webDone resp =>
    if s.web = .process then do return { s with buf := ← wrRange s.buf 0 resp, webSize := resp.length, web := .sending }
    else .ok s
  | .webTimeout tick =>
    if (tick + 4294967296 - s.keep) % 4294967296 > 2000 ∧ s.web = .hold then
      .ok { s with owner := Apdu.releaseCas s.owner WebUsb.ownerWeb, web := .idle }
    else .ok s

/-- A history. -/
def run (c : Cfg) (s : St) : List Op → C St
  | [] => .ok s
  | op :: h => do run c (← step c s op) h

end Verif.Usb
