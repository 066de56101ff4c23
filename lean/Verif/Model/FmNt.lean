import Verif.Model.Fm
/-
The configuration of the NFC chip FM11NT at the start (`/repo/interfaces/NFC/fm.c:119-137`).
-/
namespace Verif.FmNt
open Verif.Fm

/-- `user_cfg` (`fm.c:121`). -/
def userCfg : Bytes := [0x91, 0x82, 0x21, 0xCD]
/-- `atqa_sak` (`fm.c:122`). -/
def atqaSak : Bytes := [0x44, 0x00, 0x04, 0x20]
/-- `ats` (`fm.c:123`). -/
def ats : Bytes := [0x05, 0x72, 0x80, 0x57, 0x00, 0x99, 0x00]

/-- `fm11_init` (`fm.c:119-137`), with the addresses of `/repo/include/nfc.h:58-64`. The results of all functions are
ignored. `stack` is what was in the thirteen bytes of `crc_buffer`. Simplification: the pauses and the selection of the
chip, which is not part of the bus, are not modelled. -/
def init {β : Type} (p : Pins β) (stack : Bytes) (b : β) : β :=
  let b := (write p 0x390 userCfg b).2
  let b := (write p 0x3B0 ats b).2
  let b := (write p 0x3BC atqaSak b).2
  let r := read p 0 9 b
  let buf := r.2.1 ++ stack.drop r.2.1.length
  let buf := buf.take 9 ++ atqaSak
  (write p 0x3BB [UInt8.ofNat (crc8 buf)] r.2.2).2

end Verif.FmNt
