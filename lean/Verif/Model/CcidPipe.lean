import Verif.Base.Mem
/-
The bulk pipe of CCID towards the host (`/repo/interfaces/USB/class/ccid/usbd_ccid.c:9-66`,
`/repo/interfaces/USB/class/ccid/ccid.c:396-430`). The device is configured. `send_data_spinlock` excludes that the two
callers of `CCID_Response_SendData` meet: each call is one step, but packets may be taken by the host while it waits.
-/
namespace Verif.CcidPipe

/-- `bulk_in_state` (`usbd_ccid.h`). -/
inductive Bulk where
  | idle
  | dataIn
  | zlp
  | ext
deriving DecidableEq, Repr

/-- `out` is what was handed to `USBD_LL_Transmit` and not yet taken; `host` is what the host took, in order. Beside the
state of the code: `held` tells whether CCID owns the buffer, `clash` whether a transmission was ever begun before the
last one was taken, `sent` what was accepted for transmission. -/
structure St where
  bulk : Bulk
  out : Option Bytes
  host : List Bytes
  held : Bool
  clash : Bool
  sent : List Bytes
deriving DecidableEq, Repr

/-- `USBD_LL_Transmit`. -/
def transmit (s : St) (b : Bytes) : St := { s with out := some b, clash := s.clash || s.out.isSome }

/-- The host takes what is there, and `USBD_CCID_DataIn` is called (`usbd_ccid.c:21-31`); with `CCID_InFinished`
(`ccid.c:403-413`). -/
def take (s : St) : St :=
  match s.out with
  | none => s
  | some b =>
    let s := { s with out := none, host := s.host ++ [b] }
    if s.bulk = .zlp then transmit { s with bulk := .dataIn } []
    else { s with held := if s.bulk = .ext then s.held else false, bulk := .idle }

/-- The end of `CCID_Response_SendData` (`usbd_ccid.c:56-63`), with packets of 64 bytes. -/
def begin (s : St) (ext : Bool) (m : Bytes) : St :=
  transmit { s with bulk := if ext then .ext else if m.length % 64 = 0 then .zlp else .dataIn, sent := s.sent ++ [m] } m

/-- The loop of `CCID_Response_SendData` for a response (`usbd_ccid.c:48-55`), with `n` further milliseconds to wait;
`takes` tells in which of them the host takes something. False is `USBD_BUSY`, which the caller ignores. -/
def respond (m : Bytes) : Nat → List Bool → St → Bool × St
  | n, takes, s =>
    if s.bulk = .idle then (true, begin s false m)
    else
      match n with
      | 0 => (false, s)
      | n + 1 => respond m n takes.tail (if takes.headD false then take s else s)

/-- `CCID_TimeExtensionLoop` (`ccid.c:415-430`); `m` is the message of ten bytes. -/
def extend (s : St) (m : Bytes) : St := if s.bulk = .idle then begin s true m else s

/-- What can happen: CCID takes the buffer for a command, a response is ready, the timer, the host takes something. -/
inductive Op where
  | cmd
  | respond (m : Bytes) (takes : List Bool)
  | extend (m : Bytes)
  | take

/-- One event. -/
def step (s : St) : Op → St
  | .cmd => { s with held := true }
  | .respond m takes => (CcidPipe.respond m 50 takes s).2
  | .extend m => CcidPipe.extend s m
  | .take => CcidPipe.take s

/-- `USBD_CCID_Init` (`usbd_ccid.c:12-19`). -/
def init : St := ⟨.idle, none, [], false, false, []⟩

def run (s : St) (h : List Op) : St := h.foldl step s

end Verif.CcidPipe
