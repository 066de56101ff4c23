import Verif.Base.Zoom
import Verif.Model.Pin
import Verif.Model.Ndef
/-
Model of the admin applet (`/repo/applets/admin/admin.c`). The files and variables of the other applets are
an abstract state (`σ` in flash, `τ` in RAM); what they do to it is a parameter. The NDEF applet, which the
admin applet configures, and the PIN object are the real models.
-/
namespace Verif.Admin
open Verif.Apdu (Capdu)

/-- `admin_device_config_t` (`/repo/include/admin.h:37-41`). -/
structure Config where
  led : Bool
  ndef : Bool
  webusb : Bool
  deriving DecidableEq, Repr

/-- `default_cfg` (`admin.c:20`). -/
def defaultCfg : Config := ⟨true, true, true⟩

/-- Flash. `cfg` is the file `admin_cfg`; `none` stands for a missing file and for one of another size
(`admin.c:65` treats both alike). -/
structure Flash (σ : Type) where
  pin : Pin.Flash
  sn : Option Bytes
  cfg : Option Config
  ndef : Ndef.Flash
  others : σ

/-- The static variables `pin.is_validated`, `current_config` (`admin.c:18,22`), those of the NDEF applet and
those of the other applets. -/
structure Ram (τ : Type) where
  pin : Pin.Ram
  cfg : Config
  ndef : Ndef.Ram
  others : τ

/-- What another applet does: any storage action on its own files and variables. It uses up a part of the
fault schedule. -/
def Sub (σ τ α : Type) : Type :=
  { m : FsM σ τ α // ∀ w, ∃ k, (m w).2.env = fun n => w.env (n + k) }

/-- The other applets. -/
structure Ext (σ τ : Type) where
  /-- the value of `memcmp_s` on different buffers -/
  neq : Int
  /-- `openpgp_install(reset)` etc.; the result is `false` when it is negative -/
  pgp : Bool → Sub σ τ Bool
  piv : Bool → Sub σ τ Bool
  oath : Bool → Sub σ τ Bool
  ctap : Bool → Sub σ τ Bool
  pass : Bool → Sub σ τ Bool
  /-- `ctap_install_private_key`, `ctap_install_cert`, `ctap_read_sm2_config`, `ctap_write_sm2_config`,
  `pass_read_config`, `pass_write_config`, with the mapping of a negative result to 6900 -/
  fwd : Capdu → Sub σ τ Reply

abbrev M (σ τ : Type) := Cmd (Flash σ) (Ram τ) Reply

/-- A command and what the environment contributes: NFC or USB, the values of the touch sensor polled in each
round of `strong_user_presence_test` (`true` is a short touch), stack contents in `pin_verify`, and the results
of `get_fs_usage` and `get_fs_size`. -/
structure In where
  c : Capdu
  nfc : Bool
  polls : Nat → List Bool
  stack : Bytes
  usage : Byte
  size : Byte

section
variable {σ τ : Type}

def pinF : Part (Flash σ) Pin.Flash := ⟨(·.pin), fun p f => { f with pin := p }⟩
def pinR : Part (Ram τ) Pin.Ram := ⟨(·.pin), fun p r => { r with pin := p }⟩
def ndefF : Part (Flash σ) Ndef.Flash := ⟨(·.ndef), fun p f => { f with ndef := p }⟩
def ndefR : Part (Ram τ) Ndef.Ram := ⟨(·.ndef), fun p r => { r with ndef := p }⟩
def othF : Part (Flash σ) σ := ⟨(·.others), fun p f => { f with others := p }⟩
def othR : Part (Ram τ) τ := ⟨(·.others), fun p r => { r with others := p }⟩

/-- A call into `pin.c`. -/
def onPin {α : Type} (m : Pin.M α) : M σ τ α := Cmd.zoom pinF pinR (Cmd.lift m)
/-- A call into `ndef.c`. -/
def onNdef {α : Type} (m : Ndef.M α) : M σ τ α := Cmd.zoom ndefF ndefR m
/-- A call into another applet. -/
def onOther {α : Type} (m : Sub σ τ α) : M σ τ α := Cmd.zoom othF othR (Cmd.lift m.val)

/-- `return -1` seen by the host (`admin.c:310`). -/
def ioErr : Reply := .sw SW.unable

/-- `pin` (`admin.c:18`): 6 to 64 bytes. -/
def pinCfg (x : Ext σ τ) : Pin.Cfg := ⟨6, 64, x.neq⟩

/-- "123456" (`admin.c:72`). -/
def defaultPin : Bytes := [0x31, 0x32, 0x33, 0x34, 0x35, 0x36]

/-- `admin_poweroff` (`admin.c:61`). -/
def poweroff (r : Ram τ) : Ram τ := { r with pin := ⟨false⟩ }

/-- `admin_install` (`admin.c:63-75`); leaving early is `return -1`. -/
def install (reset : Bool) : M σ τ Unit := do
  Cmd.mod poweroff
  let fresh ← (if reset then pure true else do
    let a ← Cmd.rdF fun f => f.cfg
    pure a.isNone)
  if fresh then
    Cmd.mod fun r => { r with cfg := defaultCfg }
    Cmd.wrOr (fun f => some { f with cfg := some defaultCfg }) ioErr
  else
    let c ← Cmd.rdOr (fun f => f.cfg) ioErr
    Cmd.mod fun r => { r with cfg := c }
  let noPin ← (if reset then pure true else do
    let a ← Cmd.rdF fun f => f.pin
    pure a.isNone)
  if noPin then
    let rc ← onPin (Pin.create defaultPin 3)
    if rc != .ok then throw ioErr

/-- `admin_verify` (`admin.c:77-92`). `LC` is passed as the `uint8_t` parameter `len` of `pin_verify`. -/
def verify (x : Ext σ τ) (i : In) : M σ τ Reply := do
  let c := i.c
  if c.p1 != 0 || c.p2 != 0 then throw (.sw SW.wrongP1P2)
  if c.lc == 0 then
    let r ← Cmd.get
    if r.pin.validated then return .sw SW.ok
    match ← onPin Pin.getRetries with
    | none => throw ioErr
    | some n => throw (.sw (SW.pinRetries + n))
  else
    let (rc, ctr) ← onPin (Pin.verify (pinCfg x) i.stack c.data (UInt8.ofNat c.lc))
    if rc == .ioFail then throw ioErr
    if rc == .lengthInvalid then throw (.sw SW.wrongLength)
    match ctr with
    | none => throw (.ub .uninit)
    | some n =>
      if n == 0 then throw (.sw SW.blocked)
      if rc == .authFail then throw (.sw (SW.pinRetries + n.toNat))
      return .sw SW.ok

/-- `admin_change_pin` (`admin.c:94-100`). -/
def changePin (x : Ext σ τ) (c : Capdu) : M σ τ Reply := do
  if c.p1 != 0 || c.p2 != 0 then throw (.sw SW.wrongP1P2)
  let rc ← onPin (Pin.update (pinCfg x) c.data (UInt8.ofNat c.lc))
  if rc == .ioFail then throw ioErr
  if rc == .lengthInvalid then throw (.sw SW.wrongLength)
  return .sw SW.ok

/-- `admin_write_sn` (`admin.c:102-107`). `write_file` on a missing file commits twice: `lfs_file_opencfg` with
`LFS_O_CREAT` commits an empty file, closing it commits the contents. -/
def writeSn (c : Capdu) : M σ τ Reply := do
  if c.p1 != 0 || c.p2 != 0 then throw (.sw SW.wrongP1P2)
  if c.lc != 4 then throw (.sw SW.wrongLength)
  if (← Cmd.rdF fun f => f.sn.map List.length).isSome then throw (.sw SW.conditions)
  Cmd.wrOr (fun f => some { f with sn := some (f.sn.getD []) }) ioErr
  Cmd.wrOr (fun f => some { f with sn := some c.data }) ioErr
  return .sw SW.ok

/-- `fill_sn` (`admin.c:196-199`). -/
def fillSn : M σ τ Bytes := do
  match ← Cmd.rdF fun f => f.sn.map (·.take 4) with
  | none => return [0, 0, 0, 0]
  | some d => return if d.length != 4 then [0, 0, 0, 0] else d

/-- `admin_read_sn` (`admin.c:109-117`). -/
def readSn (c : Capdu) : M σ τ Reply := do
  if c.p1 != 0 || c.p2 != 0 then throw (.sw SW.wrongP1P2)
  if c.le < 4 then throw (.sw SW.wrongLength)
  let d ← fillSn
  return .resp d SW.ok

/-- `admin_config` (`admin.c:119-136`). -/
def config (c : Capdu) : M σ τ Reply := do
  let b := c.p2 &&& 1 == 1
  if c.p1 == 1 then Cmd.mod fun r => { r with cfg := { r.cfg with led := b } }
  else if c.p1 == 4 then Cmd.mod fun r => { r with cfg := { r.cfg with ndef := b } }
  else if c.p1 == 5 then Cmd.mod fun r => { r with cfg := { r.cfg with webusb := b } }
  else throw (.sw SW.wrongP1P2)
  let r ← Cmd.get
  Cmd.wrOr (fun f => some { f with cfg := some r.cfg }) ioErr
  return .sw SW.ok

/-- A C truth value. -/
def bit (b : Bool) : Byte := if b then 1 else 0

/-- `admin_read_config` (`admin.c:138-151`). -/
def readConfig (c : Capdu) : M σ τ Reply := do
  if c.p1 != 0 || c.p2 != 0 then throw (.sw SW.wrongP1P2)
  if c.le < 5 then throw (.sw SW.wrongLength)
  let r ← Cmd.get
  return .resp [bit r.cfg.led, 0, bit (Ndef.getReadOnly r.ndef), bit r.cfg.ndef, bit r.cfg.webusb, 0] SW.ok

/-- `admin_flash_usage` (`admin.c:153-162`). -/
def flashUsage (i : In) : M σ τ Reply := do
  if i.c.p1 != 0 || i.c.p2 != 0 then throw (.sw SW.wrongP1P2)
  if i.c.le < 2 then throw (.sw SW.wrongLength)
  return .resp [i.usage, i.size] SW.ok

/-- `strong_user_presence_test` (`/repo/src/device.c:107-132`): five rounds, in each of which a short touch must
be polled. Simplification: the duration of a round and the LED are not modelled. -/
def strongPresence (polls : Nat → List Bool) : Bool := (List.range 5).all fun k => (polls k).contains true

/-- "RESET" (`admin.c:168`). -/
def magic : Bytes := [0x52, 0x45, 0x53, 0x45, 0x54]

/-- One of the calls `ret = xxx_install(1); if (ret < 0) return ret;`. -/
def sub (m : Sub σ τ Bool) : M σ τ Unit := do
  if !(← onOther m) then throw ioErr

/-- `admin_factory_reset` (`admin.c:164-194`). -/
def factoryReset (x : Ext σ τ) (i : In) : M σ τ Reply := do
  let c := i.c
  if c.p1 != 0 then throw (.sw SW.wrongP1P2)
  if c.lc != 5 then throw (.sw SW.wrongLength)
  if c.data != magic then throw (.sw SW.wrongData)
  let n ← onPin Pin.getRetries
  if n.getD 0 > 0 then throw (.sw SW.conditions)
  if i.nfc then throw (.sw SW.conditions)
  if !strongPresence i.polls then throw (.sw SW.security)
  sub (x.pgp true)
  sub (x.piv true)
  sub (x.oath true)
  sub (x.ctap true)
  let _ ← onNdef (Ndef.install true)
  sub (x.pass true)
  install true
  return .sw SW.ok

/-- A reset of another applet as a command. -/
def resetOther (m : Sub σ τ Bool) : M σ τ Reply := do
  sub m
  return .sw SW.ok

/-- `admin_process_apdu` (`admin.c:201-312`) behind the test of `pin.is_validated`. -/
def gated (x : Ext σ τ) (i : In) : M σ τ Reply :=
  let c := i.c
  if c.ins == 0x01 || c.ins == 0x02 || c.ins == 0x11 || c.ins == 0x12 || c.ins == 0x43 || c.ins == 0x44 then
    onOther (x.fwd c)
  else if c.ins == 0x03 then resetOther (x.pgp true)
  else if c.ins == 0x04 then resetOther (x.piv true)
  else if c.ins == 0x05 then resetOther (x.oath true)
  else if c.ins == 0x07 then onNdef (Ndef.install true)
  else if c.ins == 0x08 then onNdef (Ndef.toggleReadOnly c)
  else if c.ins == 0x13 then resetOther (x.pass true)
  else if c.ins == 0x09 then resetOther (x.ctap true)
  else if c.ins == 0x21 then changePin x c
  else if c.ins == 0x30 then writeSn c
  else if c.ins == 0x40 then config c
  else if c.ins == 0x41 then flashUsage i
  else if c.ins == 0x42 then readConfig c
  else if c.ins == 0xFF then return .sw SW.ok
  else throw (.sw SW.insNotSupported)

/-- `admin_process_apdu` (`admin.c:201-312`). The weak vendor functions (`admin.c:24-53`) do nothing. -/
def process (x : Ext σ τ) (i : In) : M σ τ Reply := do
  let c := i.c
  if c.ins == 0xA4 then
    if c.p1 != 4 || c.p2 != 0 then throw (.sw SW.wrongP1P2)
    return .sw SW.ok
  else if c.ins == 0x31 then
    if c.p1 > 1 || c.p2 != 0 then throw (.sw SW.wrongP1P2)
    return .sw SW.ok
  else if c.ins == 0x32 then
    if c.p1 > 1 || c.p2 != 0 then throw (.sw SW.wrongP1P2)
    if c.p1 == 0 then readSn c else return .sw SW.ok
  else if c.ins == 0x14 then return .sw SW.ok
  else if c.ins == 0x50 then factoryReset x i
  else if c.ins == 0x20 then verify x i
  else
    let r ← Cmd.get
    if !r.pin.validated then throw (.sw SW.security)
    gated x i

/-! ### Histories -/

/-- `applets_install` (`/repo/src/applets.c:11-19`): the results are ignored. -/
def boot (x : Ext σ τ) : FsM (Flash σ) (Ram τ) Unit := do
  let _ ← (onOther (x.pgp false) : M σ τ Bool).run
  let _ ← (onOther (x.piv false) : M σ τ Bool).run
  let _ ← (onOther (x.oath false) : M σ τ Bool).run
  let _ ← (onOther (x.ctap false) : M σ τ Bool).run
  let _ ← (install false : M σ τ Unit).run
  let _ ← (onNdef (Ndef.install false) : M σ τ Reply).run
  let _ ← (onOther (x.pass false) : M σ τ Bool).run
  return ()

/-- RAM at power-on; `t` is that of the other applets. -/
def Ram.init (t : τ) : Ram τ := ⟨⟨false⟩, ⟨false, false, false⟩, Ndef.Ram.init, t⟩

/-- Everything that can happen to the device. -/
inductive Op (σ τ : Type) where
  /-- a command to the admin applet -/
  | apdu (i : In)
  /-- a command to the NDEF applet -/
  | ndef (i : Ndef.In)
  /-- a command to any other applet -/
  | other (m : Sub σ τ Reply)
  /-- another applet is selected: `applets_poweroff` (`/repo/src/applets.c:20-26`) as far as the admin and NDEF applets
  are concerned; for the other applets this is an operation of its own -/
  | deselect
  /-- power is lost and comes back; the variables of the other applets are then `t` -/
  | boot (t : τ)

/-- What is observed. -/
inductive Out where
  | reply (r : Reply)
  | none
  /-- power was cut during the operation -/
  | cut
  deriving DecidableEq, Repr

/-- `ram` is `none` while the device is off. -/
structure St (σ τ : Type) where
  flash : Flash σ
  ram : Option (Ram τ)

/-- Run a command. -/
def exec (m : M σ τ Reply) (f : Flash σ) (r : Ram τ) (env : Env) : St σ τ × Out :=
  match runCmd m f r env with
  | (f, _, .cut) => (⟨f, none⟩, .cut)
  | (f, r, .done a) => (⟨f, some r⟩, .reply a)

def step (x : Ext σ τ) (s : St σ τ) (op : Op σ τ) (env : Env) : St σ τ × Out :=
  match op, s.ram with
  | .boot t, _ =>
    match boot x ⟨s.flash, Ram.init t, env⟩ with
    | (none, w) => (⟨w.flash, none⟩, .cut)
    | (some _, w) => (⟨w.flash, some w.ram⟩, .none)
  | _, none => (s, .none)
  | .apdu i, some r => exec (process x i) s.flash r env
  | .ndef i, some r => exec (onNdef (Ndef.process i)) s.flash r env
  | .other m, some r => exec (onOther m) s.flash r env
  | .deselect, some r => (⟨s.flash, some { poweroff r with ndef := Ndef.poweroff r.ndef }⟩, .none)

/-- Run a history; the log holds, newest first, every operation with the state before it and what was
observed. -/
def run (x : Ext σ τ) (s : St σ τ) (log : List (St σ τ × Op σ τ × Out)) :
    List (Op σ τ × Env) → St σ τ × List (St σ τ × Op σ τ × Out)
  | [] => (s, log)
  | (op, env) :: h => run x (step x s op env).1 ((s, op, (step x s op env).2) :: log) h

end
end Verif.Admin
