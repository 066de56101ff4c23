import Verif.Model.Usb
/-
What a host expects of a USB device (Universal Serial Bus Specification 2.0, chapters 8 and 9).
-/
namespace Verif.Spec.Usb
open Verif.Usb

/-! ### Transfers -/

/-- `d` in packets of `n` bytes, the last one shorter if need be. -/
def chunks (n : Nat) (d : Bytes) : List Bytes :=
  if h : n = 0 ∨ d = [] then [] else d.take n :: chunks n (d.drop n)
termination_by d.length
decreasing_by
  have : d.length ≠ 0 := fun e => h (.inr (List.length_eq_zero_iff.mp e))
  simp only [List.length_drop]; omega

/-- The packets of the data stage of a control transfer in which the host asks for `asked` bytes and the device has `d`, which is
not longer (8.5.3.2, 5.5.3): the end is shown by a packet that is not full, unless the host gets all it asked for. -/
def packets (n : Nat) (d : Bytes) (asked : Nat) : List Bytes :=
  chunks n d ++ if d.length % n = 0 ∧ d.length < asked then [[]] else []

/-- The packets that were put into the FIFO of endpoint 0, in this order. -/
def sent (l : List Ev) : List Bytes := l.reverse.filterMap fun | .tx d => some d | _ => none

/-- What may happen in the meantime: the host takes packets or begins the status stage, the other endpoints are used, the bus is
suspended and resumed, other parts of the device use the shared buffer except for its first `n` bytes. -/
def Calm (n : Nat) : Op → Prop
  | .setup _ _ => False
  | .reset => False
  | .write off d => n ≤ off ∧ off + d.length ≤ 1342
  | .webDone _ => False
  | _ => True

/-- How often the host takes a packet. -/
def taken (h : List Op) : Nat := h.countP (· = .taken)

/-! ### Descriptors (9.5, 9.6) -/

def interface (num eps cls sub proto str : Byte) : Bytes := [9, 4, num, 0, eps, cls, sub, proto, str]

def endpoint (addr attr size interval : Byte) : Bytes := [7, 5, addr, attr, size, 0, interval]

/-- HID 1.11 6.2.1 -/
def hid (report : Bytes) : Bytes := [9, 0x21, 0x11, 0x01, 0, 1, 0x22, UInt8.ofNat report.length, 0]

/-- CCID 1.1 5.1: one slot, T=1, messages of at most 1352 bytes. -/
def smartCard : Bytes :=
  [54, 0x21, 0x10, 0x01, 0, 7] ++ [2, 0, 0, 0] ++ [0xA0, 0x0F, 0, 0] ++ [0xA0, 0x0F, 0, 0] ++ [0] ++ [0, 0xB0, 4, 0] ++ [0, 0xB0, 4, 0] ++
  [0] ++ [UInt8.ofNat (1342 % 256), UInt8.ofNat (1342 / 256), 0, 0] ++ [0, 0, 0, 0] ++ [0, 0, 0, 0] ++ [0xFE, 0, 4, 0] ++
  [UInt8.ofNat (1352 % 256), UInt8.ofNat (1352 / 256), 0, 0] ++ [0xFF, 0xFF, 0, 0, 0, 1]

/-- An interface with one endpoint in each direction. -/
def function (num cls str : Byte) (extra : Bytes) (ep attr size i o : Byte) : Bytes :=
  interface num 2 cls 0 0 str ++ extra ++ endpoint (0x80 ||| ep) attr size i ++ endpoint ep attr size o

/-- FIDO, WebUSB, smart card and, if it is enabled, keyboard. -/
def functions (c : Cfg) : List Bytes :=
  [function c.ifCtap 3 0x10 (hid ctapReport) c.epCtap 3 c.szCtap 2 5, interface c.ifWeb 0 0xFF 0xFF 0xFF 0x12,
   function c.ifCcid 0x0B 0x11 smartCard c.epCcid 2 c.szCcid 0 0] ++
  if c.ifKbd ≠ 0xFF then [function c.ifKbd 3 0x13 (hid kbdReport) c.epKbd 3 c.szKbd 10 5] else []

def configuration (c : Cfg) : Bytes :=
  let body := (functions c).flatten
  [9, 2, UInt8.ofNat ((9 + body.length) % 256), UInt8.ofNat ((9 + body.length) / 256), UInt8.ofNat (functions c).length, 1, 0, 0x80, 50] ++
  body

/-- A string descriptor; the strings are ASCII. -/
def string (s : String) : Bytes :=
  [UInt8.ofNat (2 + 2 * s.length), 3] ++ (s.toList.map fun ch => [UInt8.ofNat ch.toNat, 0]).flatten

/-- Eight upper-case hexadecimal digits. -/
def serial (c : Cfg) : Bytes :=
  let digit := fun n : Nat => UInt8.ofNat (if n < 10 then 0x30 + n else 0x41 + (n - 10))
  [18, 3] ++ ([c.serial.1, c.serial.2.1, c.serial.2.2.1, c.serial.2.2.2].map fun b => [digit (b.toNat / 16), 0, digit (b.toNat % 16), 0]).flatten

/-- What belongs to the type and the index in a GET_DESCRIPTOR request to the device. -/
def descriptor (c : Cfg) (type index : Byte) : Option Bytes :=
  if type = 1 then some (deviceDesc c)
  else if type = 2 then some (configuration c)
  else if type = 0x0F then some (bosDesc c)
  else if type = 3 then
    if index = 0 then some [4, 3, 0x09, 0x04]
    else if index = 1 then some (string "canokeys.org")
    else if index = 2 then some (string "CanoKey")
    else if index = 3 then some (serial c)
    else if index = 0x10 then some (string "FIDO2/U2F")
    else if index = 0x11 then some (string "OpenPGP PIV OATH")
    else if index = 0x12 then some (string "WebUSB")
    else if index = 0x13 then some (string "Keyboard")
    else none
  else none

/-- Cutting a byte string into descriptors by the length bytes. -/
def split : Nat → Bytes → Option (List Bytes)
  | _, [] => some []
  | 0, _ => none
  | n + 1, l :: d =>
    if l.toNat < 2 ∨ d.length + 1 < l.toNat then none
    else (split n ((l :: d).drop l.toNat)).map ((l :: d).take l.toNat :: ·)

/-- The type of a descriptor. -/
def typeOf (d : Bytes) : Byte := d.getD 1 0

/-- Every interface is followed, up to the next one, by as many endpoints as it says (byte 4). -/
def counted : List Bytes → Bool
  | [] => true
  | i :: l => (typeOf i ≠ 4 || (l.takeWhile (typeOf · ≠ 4)).countP (typeOf · = 5) = (i.getD 4 0).toNat) && counted l

/-- The SETUP packet of a request. -/
def packet (bm br : Byte) (value index length : UInt16) : Bytes :=
  [bm, br, lo value, hi value, lo index, hi index, lo length, hi length]

/-- Each enabled interface has a number of its own. -/
structure Tables (c : Cfg) : Prop where
  ctap : c.ifCtap < 4
  web : c.ifWeb < 4
  kbd : c.ifKbd < 4 ∨ c.ifKbd = 0xFF
  ctapWeb : c.ifCtap ≠ c.ifWeb
  ctapKbd : c.ifCtap ≠ c.ifKbd
  webKbd : c.ifWeb ≠ c.ifKbd

/-- The bytes the device has for a request of the host to read data (9.4, HID 1.11 7.1, the WebUSB and Microsoft OS 2.0 descriptors,
and the requests of `/repo/interfaces/USB/class/webusb/webusb.h`). -/
inductive Has (c : Cfg) (s : St) : (bm br : Byte) → (value index : UInt16) → Bytes → Prop
  | descriptor (h : descriptor c (hi v) (lo v) = some d) : Has c s 0x80 6 v i d
  | configuration (h : s.dev = .configured) : Has c s 0x80 8 0 0 [UInt8.ofNat s.config]
  | unconfigured (h : s.dev = .addressed) : Has c s 0x80 8 0 0 [0]
  | status (h : s.dev = .configured ∨ s.dev = .addressed) : Has c s 0x80 0 0 0 [if s.wakeup then 2 else 0, 0]
  | endpoint (h : s.dev = .configured) (he : lo i &&& 0x7F < 4) : Has c s 0x82 0 0 i [if lo i ∈ s.halted then 1 else 0, 0]
  | url : Has c s 0xC0 1 1 2 urlDesc
  | msos : Has c s 0xC0 2 v 7 msosDesc
  | ctapReport (h : s.dev = .configured) : Has c s 0x81 6 0x2200 (wideByte c.ifCtap) ctapReport
  | ctapHid (h : s.dev = .configured) : Has c s 0x81 6 0x2100 (wideByte c.ifCtap) (hid ctapReport)
  | kbdReport (h : s.dev = .configured) (hk : c.ifKbd ≠ 0xFF) : Has c s 0x81 6 0x2200 (wideByte c.ifKbd) kbdReport
  | kbdHid (h : s.dev = .configured) (hk : c.ifKbd ≠ 0xFF) : Has c s 0x81 6 0x2100 (wideByte c.ifKbd) (hid kbdReport)
  | webStatus (h : s.dev = .configured) : Has c s 0xC1 2 0 (wideByte c.ifWeb) [wsByte s.web]
  | webResponse (h : s.dev = .configured) (hw : s.web = .sending) (h0 : 0 < s.webSize) (h1 : s.webSize ≤ 1342) :
    Has c s 0xC1 1 0 (wideByte c.ifWeb) (s.buf.take s.webSize)

/-! ### Histories -/

/-- What can happen at all: SETUP packets have eight bytes, the rest of the device writes within the shared buffer and does not take
or give it back in the name of the WebUSB interface, a response with its status word has at most 1342 bytes. -/
def Possible : Op → Prop
  | .setup p _ => p.length = 8
  | .write off d => off + d.length ≤ 1342
  | .acquire o => o ≠ WebUsb.ownerWeb
  | .release o => o ≠ WebUsb.ownerWeb
  | .webDone r => r.length ≤ 1342
  | _ => True

/-- The latest SETUP packet of a history. -/
def latest (p : Option Bytes) : List Op → Option Bytes
  | [] => p
  | .setup q _ :: h => latest (some q) h
  | _ :: h => latest p h

/-- What may happen while a WebUSB command of `n` bytes arrives: no other request, the bus stays up, the rest of the device
keeps away from the data. The main loop may run (`webDone`, `webTimeout`). -/
def Waiting (n : Nat) : Op → Prop
  | .setup _ _ => False
  | .reset => False
  | .suspend => False
  | .resume => False
  | .disconnect => False
  | .write off d => n ≤ off ∧ off + d.length ≤ 1342
  | .acquire o => o ≠ WebUsb.ownerWeb
  | .release o => o ≠ WebUsb.ownerWeb
  | _ => True

/-- The data packets of the host. -/
def outs (h : List Op) : List Bytes := h.filterMap fun | .out d => some d | _ => none

/-! ### Device states (9.1.1) -/

/-- The visible states of a device that is powered and not suspended. -/
inductive Level where
  | default
  | address
  | configured
  deriving DecidableEq, Repr

/-- A request to the device, as the eight bytes of the SETUP packet: number and value. -/
def toDevice (p : Bytes) : Option (Byte × Byte) :=
  if p.getD 0 0 &&& 0x1F = 0 ∧ p.getD 0 0 ≠ 0xC0 then some (p.getD 1 0, p.getD 2 0) else none

/-- SET_ADDRESS (with index and length 0, 9.4.6) and SET_CONFIGURATION (9.4.7), as far as they are allowed in a state; a reset. -/
def level (l : Level) : Op → Level
  | .setup p _ =>
    match toDevice p with
    | some (n, v) =>
      if n = 5 then
        if l = .configured ∨ p.drop 4 ≠ [0, 0, 0, 0] then l else if v &&& 0x7F = 0 then .default else .address
      else if n = 9 then
        if l = .default then l else if v = 0 then .address else if v = 1 then .configured else l
      else l
    | none => l
  | .reset => .default
  | .disconnect => .default
  | _ => l

/-- Whether the bus is suspended; `none` if an event comes at a wrong time: a suspended bus is silent until it is resumed. -/
def bus (b : Bool) : Op → Option Bool
  | .suspend => if b then none else some true
  | .resume => if b then some false else none
  | .setup _ _ | .taken | .out _ | .epIn _ | .epOut _ | .reset | .disconnect => if b then none else some false
  | _ => some b

/-- The state of the device after a history, and whether it is suspended. -/
def track : Level × Bool → List Op → Option (Level × Bool)
  | x, [] => some x
  | (l, b), op :: h => (bus b op).bind fun b' => track (level l op, b') h

/-- An event of one of the functions of the device. -/
def used : Ev → Bool
  | .init | .classIn _ | .classOut _ | .rxReady => true
  | _ => false

end Verif.Spec.Usb
