import Verif.Base.Parse
import Verif.Model.Apdu
/-
Model of the NDEF applet (`/repo/applets/ndef/ndef.c`).
-/
namespace Verif.Ndef
open Verif.Apdu (Capdu)

/-- Flash: the files `E103` (capability container) and `NDEF` (`ndef.c:5-6`). -/
structure Flash where
  cc : Option Bytes
  ndef : Option Bytes
  deriving DecidableEq, Repr

/-- `selected` (`ndef.c:29`). -/
inductive Sel where
  | none
  | cc
  | ndef
  deriving DecidableEq, Repr

/-- The static variables `current_cc` and `selected` (`ndef.c:11,29`). -/
structure Ram where
  cc : Bytes
  sel : Sel
  deriving DecidableEq, Repr

/-- RAM at power-on (zero-initialised statics). -/
def Ram.init : Ram := ⟨List.replicate 15 0, .none⟩

abbrev M := Cmd Flash Ram Reply

/-- A command together with the former content of the response buffer, of which `read_file` may
leave a part untouched. -/
structure In where
  c : Capdu
  junk : Nat → Byte

/-- `NDEF_FILE_MAX_LENGTH` (`ndef.c:7-8`). -/
abbrev fileMax : Nat := 1024

/-- `default_cc` (`ndef.c:12-24`). -/
def defaultCc : Bytes := [0x00, 0x0F, 0x20, 0x04, 0x00, 0x04, 0x00, 0x04, 0x06, 0x00, 0x01, 0x04, 0x00, 0x00, 0x00]

/-- `init_data` (`ndef.c:53`). -/
def initMsg : Bytes :=
  [0x00, 0x11, 0xD1, 0x01, 0x0D, 0x55, 0x04, 0x63, 0x61, 0x6E, 0x6F, 0x6B, 0x65, 0x79, 0x73, 0x2E, 0x6F, 0x72, 0x67]

/-- `return -1` seen by the host (`ndef.c:146`). -/
def ioErr : Reply := .sw SW.unable

/-- `CC_R`, `CC_W` (`ndef.c:26-27`); `current_cc` always has 15 bytes. -/
def ccR (r : Ram) : Byte := r.cc.getD 13 0
/-- See `ccR`. -/
def ccW (r : Ram) : Byte := r.cc.getD 14 0

/-- Bytes of a file after writing `d` at `off` without truncation (`/repo/src/fs.c:38-61`): a hole is
filled with zeros, writing nothing changes nothing. -/
def patch (old : Bytes) (off : Nat) (d : Bytes) : Bytes :=
  if d = [] then old
  else (old ++ List.replicate (off - old.length) 0).take off ++ d ++ old.drop (off + d.length)

/-- `truncate_file(path, len)` (`/repo/src/fs.c:80-92`): shortens, or extends with zeros. -/
def resize (old : Bytes) (n : Nat) : Bytes := (old ++ List.replicate (n - old.length) 0).take n

/-- `ndef_poweroff` (`ndef.c:31`). -/
def poweroff (r : Ram) : Ram := { r with sel := .none }

/-- `ndef_get_read_only` (`ndef.c:33-35`). -/
def getReadOnly (r : Ram) : Bool := ccW r == 0xFF

/-- `ndef_toggle_read_only` (`ndef.c:37-50`), called by the admin applet, which also maps the result
-1 to 6900. -/
def toggleReadOnly (c : Capdu) : M Reply := do
  if c.p1 == 0 then Cmd.mod fun r => { r with cc := r.cc.set 14 0x00 }
  else if c.p1 == 1 then Cmd.mod fun r => { r with cc := r.cc.set 14 0xFF }
  else throw (.sw SW.wrongP1P2)
  let r ← Cmd.get
  Cmd.wrOr (fun f => some { f with cc := some r.cc }) ioErr
  return .sw SW.ok

/-- `ndef_create_init_ndef` (`ndef.c:52-57`).  All littlefs error codes are below -1, so the tests
`< -1` detect every failure. -/
def createInit : M Unit := do
  Cmd.wrOr (fun f => some { f with ndef := some initMsg }) ioErr
  Cmd.wrOr (fun f => some { f with ndef := some (resize (f.ndef.getD []) fileMax) }) ioErr

/-- `ndef_install` (`ndef.c:59-70`).  The `||` is evaluated from left to right. -/
def install (reset : Bool) : M Reply := do
  Cmd.mod poweroff
  let fresh ← (if reset then pure true else do
    let a ← Cmd.rdF fun f => f.cc.map List.length
    if a != some 15 then pure true
    else do
      let b ← Cmd.rdF fun f => f.ndef.map List.length
      pure (b.getD 0 == 0))
  if fresh then
    Cmd.mod fun r => { r with cc := defaultCc }
    createInit
    let r ← Cmd.get
    Cmd.wrOr (fun f => some { f with cc := some r.cc }) ioErr
  else
    let d ← Cmd.rdOr (fun f => f.cc) ioErr
    Cmd.mod fun r => { r with cc := d.take 15 ++ r.cc.drop d.length }
  return .sw SW.ok

/-- `ndef_select` (`ndef.c:72-83`). -/
def select (c : Capdu) : M Reply := do
  if c.p1 == 4 && c.p2 == 0 then return .sw SW.ok
  if c.p1 != 0 || c.p2 != 0x0C then throw (.sw SW.wrongP1P2)
  if c.lc < 2 then throw (.sw SW.wrongLength)
  let d0 ← Cmd.mem (rd c.data 0)
  let d1 ← Cmd.mem (rd c.data 1)
  if d0 == 0xE1 && d1 == 0x03 then Cmd.mod fun r => { r with sel := .cc }
  else if d0 == 0x00 && d1 == 0x01 then Cmd.mod fun r => { r with sel := .ndef }
  else throw (.sw SW.fileNotFound)
  return .sw SW.ok

/-- `offset` (`ndef.c:86,109`). -/
def offset (c : Capdu) : Nat := c.p1.toNat * 256 + c.p2.toNat

/-- `read_file(path, RDATA, off, n)` followed by `LL = n`: the response has `n` bytes, those that the
file does not provide are what the response buffer held before. -/
def readInto (d : Bytes) (off n : Nat) (junk : Nat → Byte) : Bytes :=
  let got := (d.drop off).take n
  got ++ (List.range (n - got.length)).map fun k => junk (got.length + k)

/-- `ndef_read_binary` (`ndef.c:85-106`). -/
def readBinary (i : In) : M Reply := do
  let c := i.c
  if offset c > fileMax then throw (.sw SW.wrongLength)
  if c.le > fileMax then throw (.sw SW.wrongLength)
  let r ← Cmd.get
  match r.sel with
  | .cc =>
    if offset c + c.le > 15 then throw (.sw SW.wrongLength)
    let d ← Cmd.rdOr (fun f => f.cc) ioErr
    return .resp (readInto d (offset c) c.le i.junk) SW.ok
  | .ndef =>
    if ccR r != 0 then throw (.sw SW.security)
    if offset c + c.le > fileMax then throw (.sw SW.wrongLength)
    let d ← Cmd.rdOr (fun f => f.ndef) ioErr
    return .resp (readInto d (offset c) c.le i.junk) SW.ok
  | .none => throw (.sw SW.conditions)

/-- `ndef_update` (`ndef.c:108-126`). -/
def update (c : Capdu) : M Reply := do
  if offset c > fileMax then throw (.sw SW.wrongLength)
  if c.lc > fileMax then throw (.sw SW.wrongLength)
  let r ← Cmd.get
  match r.sel with
  | .cc => throw (.sw SW.conditions)
  | .ndef =>
    if ccW r != 0 then throw (.sw SW.security)
    if offset c + c.lc > fileMax then throw (.sw SW.wrongLength)
    Cmd.wrOr (fun f => some { f with ndef := some (patch (f.ndef.getD []) (offset c) c.data) }) ioErr
    return .sw SW.ok
  | .none => throw (.sw SW.conditions)

/-- `ndef_process_apdu` (`ndef.c:128-148`). -/
def process (i : In) : M Reply :=
  if i.c.ins == 0xA4 then select i.c
  else if i.c.ins == 0xB0 then readBinary i
  else if i.c.ins == 0xD6 then update i.c
  else throw (.sw SW.insNotSupported)

/-! ### Histories -/

/-- Everything that can happen to the applet. -/
inductive Op where
  /-- a command of the host -/
  | apdu (i : In)
  /-- TOGGLE NDEF READ ONLY of the admin applet -/
  | toggle (c : Capdu)
  /-- RESET NDEF of the admin applet -/
  | reset
  /-- another applet is selected (`/repo/src/apdu.c:14-38`) -/
  | deselect
  /-- power is lost and comes back; `ndef_install(0)` runs (`/repo/src/applets.c:12-24`) -/
  | boot

/-- What is observed. -/
inductive Out where
  | reply (r : Reply)
  | none
  /-- power was cut during the operation -/
  | cut
  deriving DecidableEq, Repr

/-- `ram` is `none` while the device is off. -/
structure St where
  flash : Flash
  ram : Option Ram
  deriving DecidableEq, Repr

/-- Run a command. -/
def exec (m : M Reply) (f : Flash) (r : Ram) (env : Env) : St × Out :=
  match runCmd m f r env with
  | (f, _, .cut) => (⟨f, none⟩, .cut)
  | (f, r, .done a) => (⟨f, some r⟩, .reply a)

def step (s : St) (op : Op) (env : Env) : St × Out :=
  match op, s.ram with
  | .boot, _ => exec (install false) s.flash Ram.init env
  | _, none => (s, .none)
  | .apdu i, some r => exec (process i) s.flash r env
  | .toggle c, some r => exec (toggleReadOnly c) s.flash r env
  | .reset, some r => exec (install true) s.flash r env
  | .deselect, some r => (⟨s.flash, some (poweroff r)⟩, .none)

/-- Run a history; the log holds every operation with what was observed, newest first. -/
def run (s : St) (log : List (Op × Out)) : List (Op × Env) → St × List (Op × Out)
  | [] => (s, log)
  | (op, env) :: h => run (step s op env).1 ((op, (step s op env).2) :: log) h

end Verif.Ndef
