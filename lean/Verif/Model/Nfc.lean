import Verif.Model.Apdu
/-
Model of `/repo/interfaces/NFC/nfc.c`: the block protocol of ISO/IEC 14443-4 over the buffer shared by all interfaces.
-/
namespace Verif.Nfc

/-- `next_state` (`nfc.c:17`). -/
inductive Next where
  | toReceive
  | toSend
  deriving DecidableEq, Repr

/-- What can be observed. -/
inductive Ev where
  /-- `process_apdu` is called for these command bytes and gives this response -/
  | exec (apdu resp : Bytes)
  /-- a frame is sent, without the checksum that the chip appends -/
  | sent (f : Bytes)
  /-- `nfc_error_handler` is called -/
  | error
  deriving DecidableEq, Repr

/-- The variables of `nfc.c:16-23`. `rx` is `rx_frame_buf` (32 bytes), `rxLen` is `rx_frame_size`; `buf` is
`global_buffer` (`bulkin_data.abData`, 1342 bytes, `/repo/interfaces/USB/class/ccid/ccid.h:7`). `hung` means that
`nfc_send_frame` waits for a frame. -/
structure St where
  buf : Bytes
  bn : Byte
  rx : Bytes
  rxLen : Nat
  inf : Bool
  rxSize : Nat
  txSize : Nat
  sent : Nat
  last : Nat
  next : Next
  hung : Bool
  log : List Ev
  deriving DecidableEq, Repr

/-- `nfc_init` (`nfc.c:25-37`). -/
def St.init : St :=
  ⟨List.replicate 1342 0, 1, List.replicate 32 0, 0, false, 0, 0, 0, 0, .toReceive, false, []⟩

/-- `nfc_error_handler` (`nfc.c:39-55`). `apdu_buffer_sent` is not reset. The reset of the chip is not modelled. -/
def err (s : St) : St :=
  { s with bn := 1, rxSize := 0, txSize := 0, last := 0, inf := false, next := .toReceive, log := .error :: s.log }

/-- The interrupts: the timer of the waiting time extension, a frame, an error reported by the chip. -/
inductive Irq where
  | wtx
  | frame (f : Bytes)
  | aux
  deriving DecidableEq, Repr

/-- `send_wtx` (`nfc.c:99-108`) and `nfc_handler` (`nfc.c:181-202`). Interrupts are atomic; a frame includes its
two-byte checksum. -/
def irq (s : St) : Irq → St
  | .wtx => if s.next = .toSend then { s with log := .sent [0xF2, 1] :: s.log, next := .toReceive } else s
  | .frame f =>
    if f.length > 32 then err { s with rxLen := f.length }
    else { s with rx := f ++ s.rx.drop f.length, rxLen := f.length, next := .toSend }
  | .aux => err s

/-- Several interrupts. -/
def irqs (s : St) : List Irq → St
  | [] => s
  | i :: l => irqs (irq s i) l

/-- `nfc_send_frame` (`nfc.c:72-84`) with `do_nfc_send_frame` (`nfc.c:57-70`): waits until a frame has been received;
`late` are the interrupts that happen meanwhile. -/
def sendFrame (s : St) (f : Bytes) : List Irq → St
  | [] => if s.next = .toSend then { s with log := .sent f :: s.log, next := .toReceive } else { s with hung := true }
  | i :: l =>
    if s.next = .toSend then { s with log := .sent f :: s.log, next := .toReceive } else sendFrame (irq s i) f l

/-- `send_apdu_buffer` (`nfc.c:86-97`). All variables have 16 bits. -/
def sendBuf (s : St) (resend : Bool) (late : List Irq) : C St := do
  let sent := if resend then (s.sent + 65536 - s.last) % 65536 else s.sent
  let n := (s.txSize + 65536 - sent) % 65536
  if n == 0 then return err { s with sent := sent, last := 0 }
  let n := min n 29
  let pcb : Byte := s.bn ||| 0x02 ||| (if s.txSize > sent + n then 0x10 else 0)
  let d ← rdRange s.buf sent n
  let s := sendFrame { s with sent := sent, last := n } (pcb :: d) late
  if s.hung then return s
  let s := { s with sent := (s.sent + s.last) % 65536 }
  return { s with inf := if s.txSize == s.sent then false else s.inf }

/-- What the environment contributes to a call of `nfc_loop`: the response of `process_apdu`, the interrupts during its
execution and those while `nfc_send_frame` waits. -/
structure Env where
  resp : Bytes
  sw1 : Byte
  sw2 : Byte
  mid : List Irq
  late : List Irq
  deriving DecidableEq, Repr

/-- The copy and the check of `nfc.c:117-122` and `125-130`; `none` after an error. -/
def recv (s : St) : C (St × Bool) := do
  if s.rxLen < 3 then .error .oob
  let b ← wrRange s.buf s.rxSize (← rdRange s.rx 1 (s.rxLen - 3))
  let s := { s with buf := b }
  if s.rxSize + (s.rxLen - 3) > 1340 then return (err s, false)
  else return ({ s with rxSize := s.rxSize + (s.rxLen - 3) }, true)

/-- The execution of a complete command (`nfc.c:132-152`). -/
def exec (s : St) (e : Env) : C St := do
  let cmd ← rdRange s.buf 0 s.rxSize
  match ← Apdu.buildCapdu cmd with
  | none =>
    let b ← wrRange s.buf 0 [0x67, 0x00]
    sendBuf { s with buf := b, txSize := 2, rxSize := 0, sent := 0, inf := true } false e.late
  | some _ =>
    let s := irqs { s with log := .exec cmd (e.resp ++ [e.sw1, e.sw2]) :: s.log } e.mid
    let b ← wrRange s.buf 0 (e.resp ++ [e.sw1, e.sw2])
    sendBuf { s with buf := b, txSize := e.resp.length + 2, rxSize := 0, sent := 0, inf := true } false e.late

/-- `nfc_loop` (`nfc.c:110-179`). While `nfc_send_frame` waits the loop is not entered again. -/
def loop (s : St) (e : Env) : C St :=
  if s.hung || s.next = .toReceive then .ok s
  else do
    let p ← rd s.rx 0
    if p &&& 0xC0 == 0x00 then
      let (s, ok) ← recv { s with bn := s.bn ^^^ 1 }
      if !ok then return s
      else if p &&& 0x10 != 0 then return sendFrame s [0xA2 ||| s.bn] e.late
      else exec s e
    else if p &&& 0xC0 == 0x80 then
      if p &&& 1 == s.bn then sendBuf s true e.late
      else if p &&& 0xB2 == 0xA2 || s.inf then sendBuf { s with bn := s.bn ^^^ 1 } false e.late
      else return sendFrame s [0xA2 ||| s.bn] e.late
    else return s

/-- Everything that can happen. -/
inductive Op where
  | irq (i : Irq)
  | loop (e : Env)
  deriving DecidableEq, Repr

/-- One operation. -/
def step (s : St) : Op → C St
  | .irq i => .ok (irq s i)
  | .loop e => loop s e

/-- A history. -/
def run (s : St) : List Op → C St
  | [] => .ok s
  | op :: h => do run (← step s op) h

end Verif.Nfc
