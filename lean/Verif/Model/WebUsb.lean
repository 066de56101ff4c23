import Verif.Model.Apdu
/-
Model of `/repo/interfaces/USB/class/webusb/webusb.c`: commands in control transfers.
-/
namespace Verif.WebUsb

/-- The values of `state` (`webusb.c:7-14`). -/
inductive WS where
  | idle
  | sending
  | process
  | sent
  | recving
  | hold
  deriving DecidableEq, Repr

/-- What can be observed. -/
inductive Ev where
  /-- a command of `n` bytes is announced and accepted -/
  | accepted (n : Nat)
  /-- its data arrives -/
  | received (d : Bytes)
  /-- a command is processed, with this response -/
  | done (cmd resp : Bytes)
  /-- this is given to the host as a response -/
  | gave (d : Bytes)
  /-- a request is refused -/
  | refused
  /-- the interface is initialised -/
  | reset
  deriving DecidableEq, Repr

/-- The variables of `webusb.c:16-20`. `ep0` tells that the control endpoint is in its data-out stage
(`USBD_EP0_DATA_OUT`); `buf` is `global_buffer`, `owner` is `buffer_owner`. -/
structure St where
  st : WS
  size : Nat
  keep : Nat
  ep0 : Bool
  owner : Nat
  buf : Bytes
  log : List Ev
  deriving DecidableEq, Repr

/-- `BUFFER_OWNER_WEBUSB` (`/repo/include/apdu.h:87`). -/
def ownerWeb : Nat := 3

/-- After `USBD_WEBUSB_Init` (`webusb.c:22-31`). -/
def St.init : St := ⟨.idle, 0, 0, false, Apdu.ownerNone, List.replicate 1342 0, []⟩

/-- What happens in interrupts. -/
inductive Irq where
  /-- a request `WEBUSB_REQ_CMD` with `wLength = n` at time `tick` -/
  | cmd (n tick : Nat)
  /-- a request `WEBUSB_REQ_RESP` -/
  | resp (n tick : Nat)
  /-- a request `WEBUSB_REQ_STAT` -/
  | stat (tick : Nat)
  /-- any other request to the interface -/
  | bad (tick : Nat)
  /-- a request for a descriptor that is composed in the shared buffer -/
  | desc (d : Bytes)
  /-- the data of a control transfer has arrived -/
  | data (d : Bytes)
  /-- the data of a control transfer has been sent -/
  | txSent
  /-- another interface asks for the buffer, and writes to it if it gets it -/
  | other (o : Nat) (b : Bytes)
  /-- another interface gives the buffer back -/
  | otherEnd (o : Nat)
  /-- the host configures the device -/
  | reset
  deriving DecidableEq, Repr

def refuse (s : St) : St := { s with log := .refused :: s.log }

/-- `USBD_WEBUSB_Setup` (`webusb.c:33-81`), `USBD_WEBUSB_TxSent` (`114-124`), `USBD_WEBUSB_RxReady` (`126-133`).
`USBD_LL_SetupStage` (`/repo/interfaces/USB/core/src/usbd_core.c:172-175`) ends a data stage, `USBD_LL_DataOutStage`
(`usbd_core.c:212-226`) calls `USBD_WEBUSB_RxReady` in a data-out stage only. The endpoint takes at most as many bytes
as announced. Descriptors: `/repo/interfaces/USB/device/usbd_desc.c:397-445`. -/
def irq (s : St) : Irq → C St
  | .cmd n tick =>
    let s := { s with keep := tick, ep0 := false }
    if s.st ≠ .idle ∧ s.st ≠ .hold then .ok (refuse s)
    else
      let s := { s with owner := Apdu.acquireCas s.owner ownerWeb }
      if !Apdu.acquireRead s.owner ownerWeb then .ok (refuse s)
      else
        let s := { s with st := .hold }
        if n > 1340 then .ok (refuse s)
        else .ok { s with ep0 := true, size := n, st := .recving, log := .accepted n :: s.log }
  | .resp n tick =>
    let s := { s with keep := tick, ep0 := false }
    if s.st = .sending then do
      let d ← rdRange s.buf 0 (min s.size n)
      return { s with st := .sent, log := .gave d :: s.log }
    else .ok (refuse s)
  | .stat tick => .ok { s with keep := tick, ep0 := false }
  | .bad tick => .ok (refuse { s with keep := tick, ep0 := false })
  | .desc d => do return { s with ep0 := false, buf := ← wrRange s.buf 0 d }
  | .data d =>
    if s.ep0 then do
      return { s with
        ep0 := false, buf := ← wrRange s.buf 0 (d.take s.size), st := .process,
        log := .received (d.take s.size) :: s.log }
    else .ok s
  | .txSent => .ok (if s.st = .sent then { s with st := .hold } else s)
  | .other o b =>
    let ow := Apdu.acquireCas s.owner o
    if Apdu.acquireRead ow o then do return { s with owner := ow, buf := ← wrRange s.buf 0 b }
    else .ok { s with owner := ow }
  | .otherEnd o => .ok { s with owner := Apdu.releaseCas s.owner o }
  | .reset => .ok { s with st := .idle, keep := 0, ep0 := false, log := .reset :: s.log }

/-- Several interrupts. -/
def irqs (s : St) : List Irq → C St
  | [] => .ok s
  | i :: l => do irqs (← irq s i) l

/-- What the environment contributes to a call of `WebUSB_Loop`: the time, the response of `process_apdu`, interrupts
between the check of the timeout and the release of the buffer, and during the execution of the command. -/
structure Env where
  tick : Nat
  resp : Bytes
  sw1 : Byte
  sw2 : Byte
  a1 : List Irq
  a2 : List Irq
  deriving DecidableEq, Repr

/-- The release after the idle timeout (`webusb.c:84-89`). The clock has 32 bits. -/
def timeout (s : St) (e : Env) : C St :=
  if (e.tick + 4294967296 - s.keep) % 4294967296 > 2000 ∧ s.st = .hold then do
    let s ← irqs s e.a1
    return { s with owner := Apdu.releaseCas s.owner ownerWeb, st := .idle }
  else .ok s

/-- `WebUSB_Loop` (`webusb.c:83-112`). -/
def loop (s : St) (e : Env) : C St := do
  let s ← timeout s e
  if s.st ≠ .process then return s
  let cmd ← rdRange s.buf 0 s.size
  match ← Apdu.buildCapdu cmd with
  | none =>
    return { s with
      size := 2, buf := ← wrRange s.buf 0 [0x67, 0x00], st := .sending, log := .done cmd [0x67, 0x00] :: s.log }
  | some _ =>
    let s ← irqs s e.a2
    return { s with
      size := e.resp.length + 2, buf := ← wrRange s.buf 0 (e.resp ++ [e.sw1, e.sw2]), st := .sending,
      log := .done cmd (e.resp ++ [e.sw1, e.sw2]) :: s.log }

/-- Everything that can happen. -/
inductive Op where
  | irq (i : Irq)
  | loop (e : Env)
  deriving DecidableEq, Repr

/-- One operation. -/
def step (s : St) : Op → C St
  | .irq i => irq s i
  | .loop e => loop s e

/-- A history. -/
def run (s : St) : List Op → C St
  | [] => .ok s
  | op :: h => do run (← step s op) h

end Verif.WebUsb
