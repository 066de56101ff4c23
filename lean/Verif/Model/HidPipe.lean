import Verif.Model.Hid
/-
The interrupt pipe of CTAPHID towards the host (`/repo/interfaces/USB/class/ctaphid/usbd_ctaphid.c:90-116`). The device
is configured; the endpoint keeps a copy of the packet.
-/
namespace Verif.HidPipe
open Verif.Hid (Frame)

/-- `hid_handle.state` (`busy`), the packet handed to `USBD_LL_Transmit` and not yet taken, the packets the host took. -/
structure St where
  busy : Bool
  out : Option Frame
  host : List Frame
deriving DecidableEq

/-- The host takes the packet, and `USBD_CTAPHID_DataIn` is called (`usbd_ctaphid.c:90-93`). -/
def take (s : St) : St :=
  match s.out with
  | none => s
  | some f => ⟨false, none, s.host ++ [f]⟩

/-- `USBD_CTAPHID_SendReport` (`usbd_ctaphid.c:101-116`) with `n` further milliseconds to wait; `takes` tells in which of
them the host takes a packet. False is `USBD_BUSY`. -/
def sendReport (f : Frame) : Nat → List Bool → St → Bool × St
  | n, takes, s =>
    if s.busy then
      match n with
      | 0 => (false, s)
      | n + 1 => sendReport f n takes.tail (if takes.headD false then take s else s)
    else (true, { s with busy := true, out := some f })

/-- The packets of a response, one after the other (`/repo/interfaces/USB/class/ctaphid/ctaphid.c:35-66`): the result of
`USBD_CTAPHID_SendReport` is ignored. `when` tells for each packet when the host takes something. -/
def sendAll (s : St) : List (Frame × List Bool) → St
  | [] => s
  | (f, takes) :: l => sendAll (sendReport f 50 takes s).2 l

end Verif.HidPipe
