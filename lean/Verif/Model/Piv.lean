import Verif.Base.Zoom
import Verif.Model.Apdu
import Verif.Model.Pin
import Verif.Model.KeyFile
/-
Model of the PIV applet (`/repo/applets/piv/piv.c`); line numbers refer to that file.

Simplifications: the response buffer is kept apart from the command data (in `/repo` both are the chaining
buffer, `/repo/src/apdu.c:54-59`, but no response byte is written over command bytes that are still to be read:
the four bytes of a header lie in front of every value); key material is structured (`KeyMat`) instead of an
image of `rsa_key_t`; the management key is its 24 bytes; the algorithm configuration is its seven bytes;
`write_file` on a missing file is one step.
-/
namespace Verif.Piv
open Verif.Apdu (Capdu)
open Verif.Key (KeyMat)
open Verif.KeyFile

/-- The data objects (`piv.c:16-27`). -/
inductive Obj where
  | cert9A | cert9C | cert9D | cert9E | cert82 | cert83
  | chuid | ccc | printed | fingers | face
  deriving DecidableEq, Repr

/-- The slots for asymmetric keys (`piv.c:31-36`). -/
inductive Slot where
  | k9A | k9C | k9D | k9E | k82 | k83
  deriving DecidableEq, Repr

/-- A key reference: a slot or the management key. -/
inductive Ref where
  | adm
  | slot (s : Slot)
  deriving DecidableEq, Repr

/-- The file of the management key (`piv-admk`): contents, metadata and the attribute `TAG_PIN_KEY_DEFAULT`. -/
structure Mgmt where
  key : Bytes
  info : Option Meta
  dflt : Option Byte
  deriving DecidableEq, Repr

/-- `piv_algorithm_extension_config_t` (`/repo/applets/piv/piv.h`): seven bytes. -/
structure Alg where
  enabled : Byte
  ed25519 : Byte
  rsa3072 : Byte
  rsa4096 : Byte
  x25519 : Byte
  secp256k1 : Byte
  sm2 : Byte
  deriving DecidableEq, Repr

/-- Flash. `pinDflt`/`pukDflt` are the attributes `TAG_PIN_KEY_DEFAULT` of the PIN and PUK files. -/
structure Flash where
  objs : Obj → Option Bytes
  keys : Slot → Option KeyFile
  mgmt : Option Mgmt
  pin : Pin.Flash
  pinDflt : Option Byte
  puk : Pin.Flash
  pukDflt : Option Byte
  alg : Option Alg

/-- `auth_ctx[OFFSET_AUTH_STATE]` (`piv.c:72-74`). -/
inductive Auth where
  | none
  | external
  | mutual
  deriving DecidableEq, Repr

/-- The static variables (`piv.c:96-106`). `write`/`read` are `piv_do_write`/`piv_do_read` with `none` for -1. -/
structure Ram where
  auth : Auth
  chal : Bytes
  admin : Bool
  consumed : Bool
  path : Option Obj
  write : Option Nat
  read : Option Nat
  lastTouch : Nat
  alg : Alg
  pin : Pin.Ram
  puk : Pin.Ram
  deriving DecidableEq, Repr

/-- What the applet relies on. `neq` is the value of `memcmp_s` on different buffers. -/
structure Ext where
  neq : Int
  cr : Crypto

/-- A command and what the environment contributes to it. -/
structure In where
  c : Capdu
  /-- the bytes of the command buffer behind the command data -/
  tail : Bytes
  /-- unspecified stack and buffer contents -/
  stack : Bytes
  stale : Bytes
  /-- `random_buffer` -/
  rnd : Nat → Byte
  /-- `ecc_generate`/`rsa_generate_key` -/
  gen : KTy → Option KeyMat
  nfc : Bool
  /-- `wait_for_user_presence` succeeded -/
  present : Bool
  /-- `device_get_tick` before and after the wait -/
  tick : Nat
  tick' : Nat
  /-- `fill_sn` -/
  sn : Bytes

abbrev M := Cmd Flash Ram Reply

/-- The PIN and the PUK. -/
inductive Which where
  | pin
  | puk
  deriving DecidableEq, Repr

/-- The file of a PIN object. -/
def partF : Which → Part Flash Pin.Flash
  | .pin => ⟨(·.pin), fun p f => { f with pin := p }⟩
  | .puk => ⟨(·.puk), fun p f => { f with puk := p }⟩

/-- The variable of a PIN object. -/
def partR : Which → Part Ram Pin.Ram
  | .pin => ⟨(·.pin), fun p r => { r with pin := p }⟩
  | .puk => ⟨(·.puk), fun p r => { r with puk := p }⟩

/-- A call into `pin.c`. -/
def onPin {α : Type} (w : Which) (m : Pin.M α) : M α := Cmd.zoom (partF w) (partR w) (Cmd.lift m)

/-- `pin`, `puk` (`piv.c:105-106`): 8 bytes each. -/
def pinCfg (x : Ext) : Pin.Cfg := ⟨8, 8, x.neq⟩

/-- `return -1` seen by the host (`piv.c:1176`). -/
def ioErr : Reply := .sw SW.unable

/-- `DEFAULT_MGMT_KEY`, `DEFAULT_PIN`, `DEFAULT_PUK` (`piv.c:89-91`). -/
def defaultMgmt : Bytes := [1, 2, 3, 4, 5, 6, 7, 8, 1, 2, 3, 4, 5, 6, 7, 8, 1, 2, 3, 4, 5, 6, 7, 8]
def defaultPin : Bytes := [0x31, 0x32, 0x33, 0x34, 0x35, 0x36, 0xFF, 0xFF]
def defaultPuk : Bytes := [0x31, 0x32, 0x33, 0x34, 0x35, 0x36, 0x37, 0x38]

/-- `authenticate_reset` (`piv.c:108-111`). -/
def authReset (r : Ram) : Ram := { r with auth := .none, chal := List.replicate 8 0 }

/-- `algo_id_to_key_type` (`piv.c:123-146`). -/
def keyType (a : Alg) (id : Byte) : KTy :=
  if id == 0x11 then .secp256r1
  else if id == 0x14 then .secp384r1
  else if id == 0x07 then .rsa2048
  else if id == 0x00 || id == 0x03 then .tdea
  else if a.enabled == 0 then .none
  else if id == a.ed25519 then .ed25519
  else if id == a.rsa3072 then .rsa3072
  else if id == a.rsa4096 then .rsa4096
  else if id == a.x25519 then .x25519
  else if id == a.secp256k1 then .secp256k1
  else if id == a.sm2 then .sm2
  else .none

/-- `key_type_to_algo_id` (`piv.c:148-174`). -/
def algId (a : Alg) : KTy → Byte
  | .secp256r1 => 0x11
  | .secp384r1 => 0x14
  | .rsa2048 => 0x07
  | .ed25519 => a.ed25519
  | .x25519 => a.x25519
  | .secp256k1 => a.secp256k1
  | .sm2 => a.sm2
  | .rsa3072 => a.rsa3072
  | .rsa4096 => a.rsa4096
  | .tdea => 0x03
  | .secp521r1 | .none => 0x00

/-- `piv_poweroff` (`piv.c:192-200`). -/
def poweroff (r : Ram) : Ram :=
  { r with admin := false, consumed := false, pin := ⟨false⟩, puk := ⟨false⟩, write := none, read := none,
           path := none }

/-- Replace an object. -/
def Flash.setObj (f : Flash) (o : Obj) (d : Bytes) : Flash :=
  { f with objs := fun o' => if o' = o then some d else f.objs o' }

/-- Replace a key file. -/
def Flash.setKey (f : Flash) (s : Slot) (k : Option KeyFile) : Flash :=
  { f with keys := fun s' => if s' = s then k else f.keys s' }

/-- A sequence of `write_file(path, d, 0, n, 1)`. -/
def writeObjs : List (Obj × Bytes) → M Unit
  | [] => pure ()
  | (o, d) :: rest => do
    Cmd.wrOr (fun f => some (f.setObj o d)) ioErr
    writeObjs rest

/-- `ck_write_key` (`/repo/src/key.c:386-390`) on a slot. -/
def writeKey (s : Slot) (m : KeyMat) (i : Meta) : M Unit := do
  Cmd.wrOr (fun f => some (f.setKey s (putMat m (f.keys s)))) ioErr
  Cmd.wrOr (fun f => (putInfo i (f.keys s)).map (f.setKey s)) ioErr

/-- `ck_read_key` (`/repo/src/key.c:380-384`) on a slot. -/
def readKey (s : Slot) : M (KeyMat × Meta) := do
  let i ← Cmd.rdOr (fun f => (f.keys s).bind (·.info)) ioErr
  let m ← Cmd.rdOr (fun f => (f.keys s).map (·.mat)) ioErr
  return (m, i)

/-- A sequence of `create_key` (`piv.c:113-121`). -/
def createKeys : List (Slot × Byte × Byte) → M Unit
  | [] => pure ()
  | (s, usage, pol) :: rest => do
    writeKey s zeroMat ⟨.none, 0, usage, pol, 1⟩
    createKeys rest

/-- `ccc_tpl` with its random part (`piv.c:219-223`). -/
def cccTpl (rnd : Nat → Byte) : Bytes :=
  [0x53, 0x33, 0xf0, 0x15] ++ (List.range 21).map rnd ++
  [0xf1, 0x01, 0x21, 0xf2, 0x01, 0x21, 0xf3, 0x00, 0xf4, 0x01, 0x00, 0xf5, 0x01, 0x10, 0xf6, 0x00, 0xf7,
   0x00, 0xfa, 0x00, 0xfb, 0x00, 0xfc, 0x00, 0xfd, 0x00, 0xfe, 0x00]

/-- `chuid_tpl` with its random part (`piv.c:225-229`). -/
def chuidTpl (rnd : Nat → Byte) : Bytes :=
  [0x53, 0x3b, 0x30, 0x19, 0xd4, 0xe7, 0x39, 0xda, 0x73, 0x9c, 0xed, 0x39, 0xce, 0x73, 0x9d, 0x83,
   0x68, 0x58, 0x21, 0x08, 0x42, 0x10, 0x84, 0x21, 0xc8, 0x42, 0x10, 0xc3, 0xeb, 0x34, 0x10] ++
  (List.range 16).map (fun k => rnd (21 + k)) ++
  [0x35, 0x08, 0x32, 0x30, 0x35, 0x30, 0x30, 0x31, 0x30, 0x31, 0x3e, 0x00, 0xfe, 0x00]

/-- The objects written by `piv_install` (`piv.c:210-230`). -/
def initObjs (rnd : Nat → Byte) : List (Obj × Bytes) :=
  [(.cert9A, []), (.cert9C, []), (.cert9D, []), (.cert9E, []), (.cert82, []), (.cert83, []), (.printed, []),
   (.fingers, []), (.face, []), (.ccc, cccTpl rnd), (.chuid, chuidTpl rnd)]

/-- The key slots created by `piv_install` (`piv.c:233-238`) with usage and PIN policy. -/
def initKeys : List (Slot × Byte × Byte) :=
  [(.k9A, 1, 2), (.k9C, 1, 2), (.k9D, 4, 2), (.k9E, 1, 1), (.k82, 4, 2), (.k83, 4, 2)]

/-- `alg_ext_cfg` as set at `piv.c:259-265`. -/
def defaultAlg : Alg := ⟨1, 0xE0, 0x05, 0x16, 0xE1, 0x53, 0x54⟩

/-- Metadata of the management key (`piv.c:241-245`). -/
def mgmtMeta : Meta := ⟨.tdea, 1, 2, 1, 1⟩

/-- `write_attr(path, TAG_PIN_KEY_DEFAULT, ..)` on the file of the PIN or the PUK; fails on a missing file. -/
def setDflt (w : Which) (v : Byte) (f : Flash) : Option Flash :=
  match w with
  | .pin => if f.pin.isSome then some { f with pinDflt := some v } else none
  | .puk => if f.puk.isSome then some { f with pukDflt := some v } else none

/-- The management key part of `piv_install` (`piv.c:241-249`). -/
def installMgmt : M Unit := do
  Cmd.wrOr (fun f => some { f with mgmt := some { (f.mgmt.getD ⟨[], none, none⟩) with key := defaultMgmt } }) ioErr
  Cmd.wrOr (fun f => f.mgmt.map fun m => { f with mgmt := some { m with info := some mgmtMeta } }) ioErr
  Cmd.wrOr (fun f => f.mgmt.map fun m => { f with mgmt := some { m with dflt := some 1 } }) ioErr

/-- The PIN and PUK part of `piv_install` (`piv.c:252-255`). -/
def installPins : M Unit := do
  let rc ← onPin .pin (Pin.create defaultPin 3)
  if rc != .ok then throw ioErr
  Cmd.wrOr (setDflt .pin 1) ioErr
  let rc ← onPin .puk (Pin.create defaultPuk 3)
  if rc != .ok then throw ioErr
  Cmd.wrOr (setDflt .puk 1) ioErr

/-- `piv_install` from `piv.c:209` on. -/
def installAll (rnd : Nat → Byte) : M Unit := do
  writeObjs (initObjs rnd)
  createKeys initKeys
  installMgmt
  installPins
  if (← Cmd.rdF fun f => f.alg).isSome then return ()
  Cmd.mod fun r => { r with alg := defaultAlg }
  Cmd.wrOr (fun f => some { f with alg := some defaultAlg }) ioErr

/-- `piv_install` (`piv.c:202-269`); leaving early is `return -1`. -/
def install (reset : Bool) (rnd : Nat → Byte) : M Unit := do
  Cmd.mod poweroff
  if reset then installAll rnd
  else if (← Cmd.rdF fun f => f.alg).isSome then
    let a ← Cmd.rdOr (fun f => f.alg) ioErr
    Cmd.mod fun r => { r with alg := a }
  else installAll rnd

/-- `get_object_path_by_tag` (`piv.c:271-299`). -/
def objOf (tag : Byte) : Option Obj :=
  if tag == 0x05 then some .cert9A
  else if tag == 0x0A then some .cert9C
  else if tag == 0x0B then some .cert9D
  else if tag == 0x01 then some .cert9E
  else if tag == 0x0D then some .cert82
  else if tag == 0x0E then some .cert83
  else if tag == 0x02 then some .chuid
  else if tag == 0x07 then some .ccc
  else if tag == 0x09 then some .printed
  else if tag == 0x03 then some .fingers
  else if tag == 0x08 then some .face
  else none

/-- `get_capacity_by_tag` (`piv.c:301-323`). -/
def capOf (tag : Byte) : Nat :=
  if tag == 0x05 || tag == 0x0A || tag == 0x0B || tag == 0x01 || tag == 0x0D || tag == 0x0E then 3000
  else if tag == 0x02 then 2916
  else if tag == 0x07 then 287
  else if tag == 0x09 then 245
  else if tag == 0x03 || tag == 0x08 then 512
  else 0

/-- `rid`, `pix`, `pin_policy` (`piv.c:93-95`). -/
def rid : Bytes := [0xA0, 0x00, 0x00, 0x03, 0x08]
def pix : Bytes := [0x00, 0x00, 0x10, 0x00, 0x01, 0x00]
def pinUsage : Bytes := [0x40, 0x10]

/-- `piv_select` (`piv.c:325-350`). -/
def select (c : Capdu) : M Reply := do
  if c.p1 != 0x04 || c.p2 != 0x00 then throw (.sw SW.wrongP1P2)
  Cmd.mod fun r => authReset { r with admin := false, consumed := false, pin := ⟨false⟩, puk := ⟨false⟩,
                                      write := none, read := none }
  return .resp ([0x61, 17, 0x4F, 6] ++ pix ++ [0x79, 7, 0x4F, 5] ++ rid) SW.ok

/-- The status word that announces `n` more bytes (`piv.c:366-369`). -/
def moreSw (n : Nat) : SW := if n > 0xFF then 0x61FF else 0x6100 + n

/-- `piv_get_large_data` (`piv.c:352-372`). `LE` is clamped to the buffer (`/repo/src/apdu.c:169`). -/
def getLargeData (c : Capdu) (o : Obj) (size : Nat) : M Reply := do
  let d ← Cmd.rdOr (fun f => (f.objs o).map (·.take (min c.le 1340))) ioErr
  let remains := size - d.length
  if remains == 0 then return .resp d SW.ok
  Cmd.mod fun r => { r with path := some o, read := some d.length }
  return .resp d (moreSw remains)

/-- The discovery object (`piv.c:395-405`). -/
def discovery : Bytes := [0x7E, 18, 0x4F, 11] ++ rid ++ pix ++ [0x5F, 0x2F, 2] ++ pinUsage

/-- `piv_get_data` (`piv.c:385-420`). -/
def getData (c : Capdu) : M Reply := do
  if c.p1 != 0x3F || c.p2 != 0xFF then throw (.sw SW.wrongP1P2)
  if c.lc < 2 then throw (.sw SW.wrongLength)
  let d0 ← Cmd.mem (rd c.data 0)
  if d0 != 0x5C then throw (.sw SW.wrongData)
  let d1 ← Cmd.mem (rd c.data 1)
  if d1.toNat + 2 != c.lc then throw (.sw SW.wrongLength)
  if d1 == 1 then
    let d2 ← Cmd.mem (rd c.data 2)
    if d2 != 0x7E then throw (.sw SW.fileNotFound)
    return .resp discovery SW.ok
  else if d1 == 3 then
    let d2 ← Cmd.mem (rd c.data 2)
    let d3 ← Cmd.mem (rd c.data 3)
    let d4 ← Cmd.mem (rd c.data 4)
    if d2 != 0x5F || d3 != 0xC1 then throw (.sw SW.fileNotFound)
    let r ← Cmd.get
    if (d4 == 0x09 || d4 == 0x03 || d4 == 0x08) && !r.pin.validated then throw (.sw SW.security)
    match objOf d4 with
    | none => throw (.sw SW.fileNotFound)
    | some o =>
      let size ← Cmd.rdOr (fun f => (f.objs o).map List.length) ioErr
      if size == 0 then throw (.sw SW.fileNotFound)
      getLargeData c o size
  else throw (.sw SW.fileNotFound)

/-- `piv_get_data_response` (`piv.c:422-445`). `size - piv_do_read` is not negative, because every other command
sets `piv_do_read` to -1. -/
def getDataResponse (c : Capdu) : M Reply := do
  let r ← Cmd.get
  match r.read with
  | none => throw (.sw SW.conditions)
  | some off =>
    match r.path with
    | none => throw ioErr
    | some o =>
      let size ← Cmd.rdOr (fun f => (f.objs o).map List.length) ioErr
      let d ← Cmd.rdOr (fun f => (f.objs o).map fun b => (b.drop off).take (min c.le 1340)) ioErr
      Cmd.mod fun r => { r with read := some (off + d.length) }
      let remains := size - (off + d.length)
      if remains == 0 then
        Cmd.mod fun r => { r with read := none, path := none }
        return .resp d SW.ok
      return .resp d (moreSw remains)

/-- The call of `pin_verify` with the first 8 bytes of the data and the treatment of its result (`piv.c:463-467`,
`483-487`, `500-504`). -/
def checkPin (x : Ext) (i : In) (w : Which) : M Unit := do
  let (rc, ctr) ← onPin w (Pin.verify (pinCfg x) i.stack i.c.data 8)
  if rc == .ioFail then throw ioErr
  match ctr with
  | none => throw (.ub .uninit)
  | some n =>
    if n == 0 then throw (.sw SW.blocked)
    if rc == .authFail then throw (.sw (SW.pinRetries + n.toNat))

/-- `piv_verify` (`piv.c:447-470`). -/
def verify (x : Ext) (i : In) : M Reply := do
  let c := i.c
  if c.p1 != 0x00 && c.p1 != 0xFF then throw (.sw SW.wrongP1P2)
  if c.p2 != 0x80 then throw (.sw SW.refNotFound)
  if c.p1 == 0xFF then
    if c.lc != 0 then throw (.sw SW.wrongLength)
    Cmd.mod fun r => { r with pin := ⟨false⟩, consumed := false }
    return .sw SW.ok
  if c.lc == 0 then
    let r ← Cmd.get
    if r.pin.validated then return .sw SW.ok
    match ← onPin .pin Pin.getRetries with
    | none => throw ioErr
    | some n => throw (.sw (SW.pinRetries + n))
  if c.lc != 8 then throw (.sw SW.wrongLength)
  checkPin x i .pin
  Cmd.mod fun r => { r with consumed := false }
  return .sw SW.ok

/-- The common part of CHANGE REFERENCE DATA and RESET RETRY COUNTER: verify the first 8 bytes against `w`, then
replace `w'` by the last 8 bytes (`piv.c:483-490`, `piv.c:500-507`). -/
def verifyThenUpdate (x : Ext) (i : In) (w w' : Which) : M Unit := do
  checkPin x i w
  let rc ← onPin w' (Pin.update (pinCfg x) (i.c.data.drop 8) 8)
  if rc == .ioFail then throw ioErr
  if rc == .lengthInvalid then throw (.sw SW.wrongLength)

/-- `DEFAULT_PIN`/`DEFAULT_PUK`. -/
def defaultOf : Which → Bytes
  | .pin => defaultPin
  | .puk => defaultPuk

/-- `piv_change_reference_data` (`piv.c:472-494`). -/
def changeRef (x : Ext) (i : In) : M Reply := do
  let c := i.c
  if c.p1 != 0x00 then throw (.sw SW.wrongP1P2)
  let w ← if c.p2 == 0x80 then pure Which.pin else if c.p2 == 0x81 then pure Which.puk
    else throw (.sw SW.refNotFound)
  if c.lc != 16 then throw (.sw SW.wrongLength)
  verifyThenUpdate x i w w
  let dflt : Byte := if c.data.drop 8 = defaultOf w then 1 else 0
  Cmd.wrOr (setDflt w dflt) ioErr
  return .sw SW.ok

/-- `piv_reset_retry_counter` (`piv.c:496-509`). -/
def resetRetry (x : Ext) (i : In) : M Reply := do
  let c := i.c
  if c.p1 != 0x00 then throw (.sw SW.wrongP1P2)
  if c.p2 != 0x80 then throw (.sw SW.refNotFound)
  if c.lc != 16 then throw (.sw SW.wrongLength)
  verifyThenUpdate x i .puk .pin
  return .sw SW.ok

/-- `get_key_path` (`piv.c:511-530`). -/
def refOf (id : Byte) : Option Ref :=
  if id == 0x9A then some (.slot .k9A)
  else if id == 0x9B then some .adm
  else if id == 0x9C then some (.slot .k9C)
  else if id == 0x9D then some (.slot .k9D)
  else if id == 0x9E then some (.slot .k9E)
  else if id == 0x82 then some (.slot .k82)
  else if id == 0x83 then some (.slot .k83)
  else none

/-! ### GENERAL AUTHENTICATE -/

/-- `pos[]`/`len[]` for the tags 80, 81, 82 and 85 (`piv.c:559`); `none` is `pos == 0`, which no tag that was
found has. -/
structure Tlvs where
  w : Option (Nat × Nat)
  c : Option (Nat × Nat)
  r : Option (Nat × Nat)
  e : Option (Nat × Nat)
  deriving DecidableEq, Repr

/-- The loop of `piv.c:565-574`; `n` bounds the number of rounds, each of which consumes at least two bytes. -/
def tlvLoop (m : Bytes) : Nat → Nat → Tlvs → PE SW Tlvs
  | 0, _, t => pure t
  | n + 1, pos, t =>
    if pos < m.length then do
      let tag ← liftM (rd m pos)
      if tag != 0x80 && tag != 0x81 && tag != 0x82 && tag != 0x85 then throw SW.wrongData
      match ← liftM (Key.tlvLen m (pos + 1) (m.length - (pos + 1))) with
      | none => throw SW.wrongLength
      | some (l, ls) =>
        let v := some (pos + 1 + ls, l)
        let t := if tag == 0x80 then { t with w := v } else if tag == 0x81 then { t with c := v }
          else if tag == 0x82 then { t with r := v } else { t with e := v }
        tlvLoop m n (pos + 1 + ls + l) t
    else pure t

/-- The dynamic authentication template (`piv.c:559-574`). -/
def tlvs (m : Bytes) : PE SW Tlvs := do
  match ← liftM (Key.tlvLen m 1 (m.length - 1)) with
  | none => throw SW.wrongLength
  | some (_, ls) => tlvLoop m m.length (1 + ls) ⟨none, none, none, none⟩

/-- The six cases of `piv.c:592-826`. -/
inductive Case where
  | sign (p l : Nat)
  | extReq
  | extResp (p l : Nat)
  | mutReq
  | mutResp (wp wl cp cl : Nat)
  | ecdh (p l : Nat)
  | invalid
  deriving DecidableEq, Repr

/-- Which case applies (`piv.c:592,668,699,718,750,789`). -/
def caseOf (t : Tlvs) : Case :=
  match t with
  | ⟨none, some (p, l + 1), some (_, 0), _⟩ => .sign p (l + 1)
  | ⟨_, some (_, 0), _, _⟩ => .extReq
  | ⟨_, _, some (p, l + 1), _⟩ => .extResp p (l + 1)
  | ⟨some (_, 0), _, _, _⟩ => .mutReq
  | ⟨some (wp, wl + 1), some (cp, cl + 1), _, _⟩ => .mutResp wp (wl + 1) cp (cl + 1)
  | ⟨_, _, some (_, 0), some (p, l + 1)⟩ => .ecdh p (l + 1)
  | _ => .invalid

/-- `PIV_TOUCH(cached)` (`piv.c:76-87`). -/
def touch (i : In) (cached : Bool) : M Unit := do
  if i.nfc then return ()
  let r ← Cmd.get
  if cached && i.tick > r.lastTouch && i.tick - r.lastTouch < 15000 then return ()
  if !i.present then throw (.sw SW.receiving)
  Cmd.mod fun r => { r with lastTouch := i.tick' }

/-- `piv_security_status_check` (`piv.c:176-190`); leaves with 6982 when it does not return 0. -/
def secCheck (pol : Byte) : M Unit := do
  let r ← Cmd.get
  if pol == 1 then pure ()
  else if pol == 3 then
    if !r.pin.validated || r.consumed then throw (.sw SW.security)
  else
    if !r.pin.validated then throw (.sw SW.security)
  Cmd.mod fun r => { r with consumed := true }

/-- The command buffer at `pos`. -/
def buf (i : In) (pos n : Nat) : C Bytes := rdRange (i.c.data ++ i.tail) pos n

/-- `ck_read_key` on a reference as cases 1 and 6 use it. For the management key the contents are read as well,
but what follows fails: `IS_RSA` and `IS_ECC` are false in case 1; for case 6 see `caseEcdh`. -/
def readRef (k : Ref) : M (KeyMat × Meta) :=
  match k with
  | .slot s => readKey s
  | .adm => do
    let i ← Cmd.rdOr (fun f => f.mgmt.bind (·.info)) ioErr
    let _ ← Cmd.rdOr (fun f => f.mgmt.map (·.key)) ioErr
    return (zeroMat, i)

/-- Case 1 (`piv.c:592-660`). The bytes that are signed are read from the command buffer: for the short
Weierstrass curves the challenge is moved up and zeros are put in front, which touches `PRIVATE_KEY_LENGTH` bytes
behind its position; for the other curves `PRIVATE_KEY_LENGTH` bytes are read regardless of its length. -/
def caseSign (x : Ext) (i : In) (k : Ref) (m : Meta) (p l : Nat) : M Reply := do
  Cmd.mod authReset
  secCheck m.pin
  let t := m.type
  if (t.isWei && l > x.cr.priv t) || (t.isRsa && l != x.cr.pub t) then throw (.sw SW.wrongLength)
  let (key, m) ← readRef k
  let t := m.type
  if t.isRsa then
    let d ← Cmd.mem (buf i p (x.cr.pub t))
    match x.cr.rsaPrivate key d with
    | none => throw ioErr
    | some sg =>
      let n := x.cr.sig t
      return .resp ([0x7C, 0x82, hi (n + 4), lo (n + 4), 0x82, 0x82, hi n, lo n] ++ sg) SW.ok
  else if t.isEcc then
    let d ← Cmd.mem (buf i p (x.cr.priv t))
    let d := if t.isWei then List.replicate (x.cr.priv t - l) 0 ++ d.take l else d
    match x.cr.sign t key d with
    | none => throw ioErr
    | some sg =>
      let sg := if t.isWei then x.cr.ansi (x.cr.priv t) sg else sg
      let n := sg.length
      return .resp ([0x7C, lo (n + 2), 0x82, lo n] ++ sg) SW.ok
  else throw ioErr

/-- Eight random bytes. -/
def rnd8 (i : In) : Bytes := (List.range 8).map i.rnd

/-- `ck_read_key` of the management key followed by `tdes_enc` (`piv.c:684-690`, `734-740`, `771-777`); an error
is answered with 6900 but the response length is already set. -/
def tdesOr (x : Ext) (inp : Bytes) (err : Reply) : M Bytes := do
  let _ ← Cmd.rdOr (fun f => f.mgmt.bind (·.info)) err
  let key ← Cmd.rdOr (fun f => f.mgmt.map (·.key)) err
  match x.cr.tdes key inp with
  | none => throw err
  | some o => return o

/-- Case 2 (`piv.c:668-692`). -/
def caseExtReq (x : Ext) (i : In) (k : Ref) : M Reply := do
  Cmd.mod fun r => { authReset r with admin := false }
  if k != .adm then throw (.sw SW.security)
  Cmd.mod fun r => { r with auth := .external }
  let d := [0x7C, 0x0A, 0x81, 0x08] ++ rnd8 i
  let o ← tdesOr x (rnd8 i) (.resp d SW.unable)
  Cmd.mod fun r => { r with chal := o }
  return .resp d SW.ok

/-- `memcmp_s(auth_ctx + OFFSET_AUTH_CHALLENGE, DATA + pos, 8) != 0`. -/
def differs (x : Ext) (a b : Bytes) : Bool := (if a = b then (0 : Int) else x.neq) != 0

/-- Case 3 (`piv.c:699-711`). -/
def caseExtResp (x : Ext) (i : In) (k : Ref) (p l : Nat) : M Reply := do
  let r ← Cmd.get
  let d ← if r.auth != .external || k != .adm || l != 8 then pure none else do
    pure (some (← Cmd.mem (rdRange i.c.data p 8)))
  let ok := match d with
    | none => false
    | some d => !differs x r.chal d
  if !ok then
    Cmd.mod authReset
    throw (.sw SW.security)
  Cmd.mod fun r => { authReset r with admin := true }
  return .sw SW.ok

/-- Case 4 (`piv.c:718-742`). -/
def caseMutReq (x : Ext) (i : In) (k : Ref) : M Reply := do
  Cmd.mod fun r => { authReset r with admin := false }
  if k != .adm then throw (.sw SW.security)
  Cmd.mod fun r => { r with auth := .mutual, chal := rnd8 i }
  let o ← tdesOr x (rnd8 i) (.resp ([0x7C, 0x0A, 0x80, 0x08] ++ i.stale) SW.unable)
  return .resp ([0x7C, 0x0A, 0x80, 0x08] ++ o) SW.ok

/-- Case 5 (`piv.c:750-782`). -/
def caseMutResp (x : Ext) (i : In) (k : Ref) (wp wl cp cl : Nat) : M Reply := do
  let r ← Cmd.get
  let d ← if r.auth != .mutual || k != .adm || wl != 8 then pure none else do
    pure (some (← Cmd.mem (rdRange i.c.data wp 8)))
  let ok := match d with
    | none => false
    | some d => !differs x r.chal d
  if !ok then
    Cmd.mod authReset
    throw (.sw SW.security)
  if cl != 8 then
    Cmd.mod authReset
    throw (.sw SW.wrongLength)
  let ch ← Cmd.mem (rdRange i.c.data cp 8)
  let o ← tdesOr x ch (.resp ([0x7C, 0x0A, 0x82, 0x08] ++ i.stale) SW.unable)
  Cmd.mod fun r => { authReset r with admin := true }
  return .resp ([0x7C, 0x0A, 0x82, 0x08] ++ o) SW.ok

/-- Case 6 (`piv.c:789-818`). With the management key, `PUBLIC_KEY_LENGTH[TDEA]` (`piv.c:796`) is read; it is
outside of the table unless canokey-crypto has an entry for it. -/
def caseEcdh (x : Ext) (i : In) (k : Ref) (m : Meta) (p l : Nat) : M Reply := do
  Cmd.mod authReset
  secCheck m.pin
  let t := m.type
  if t == .tdea then throw (.ub .oob)
  let off := if t.isWei then 1 else 0
  if l != x.cr.pub t + off then throw (.sw SW.wrongData)
  let (key, m) ← readRef k
  let t := m.type
  let off := if t.isWei then 1 else 0
  let d ← Cmd.mem (buf i (p + off) (x.cr.pub t))
  match x.cr.ecdh t key d with
  | none => throw ioErr
  | some s =>
    let n := x.cr.priv t
    return .resp ([0x7C, lo (n + 2), 0x82, lo n] ++ s) SW.ok

/-- `ck_read_key_metadata` (`/repo/src/key.c:372-374`) on a reference. -/
def metaOf (k : Ref) (f : Flash) : Option Meta :=
  match k with
  | .adm => f.mgmt.bind (·.info)
  | .slot s => (f.keys s).bind (·.info)

/-- `piv_general_authenticate` (`piv.c:532-829`). -/
def genAuth (x : Ext) (i : In) : M Reply := do
  let c := i.c
  if c.lc == 0 then throw (.sw SW.wrongLength)
  let d0 ← Cmd.mem (rd c.data 0)
  if d0 != 0x7C then throw (.sw SW.wrongData)
  match refOf c.p2 with
  | none => throw (.sw SW.wrongP1P2)
  | some k =>
    if k == .adm && c.p1 != 0 && c.p1 != 3 then throw (.sw SW.wrongP1P2)
    let m ← Cmd.rdOr (metaOf k) ioErr
    if m.type == .none then throw (.sw SW.conditions)
    let r ← Cmd.get
    if keyType r.alg c.p1 != m.type then throw (.sw SW.wrongP1P2)
    let t ← Cmd.parse (tlvs c.data)
    if m.touch == 3 || m.touch == 2 then touch i (m.touch == 3)
    match caseOf t with
    | .sign p l => caseSign x i k m p l
    | .extReq => caseExtReq x i k
    | .extResp p l => caseExtResp x i k p l
    | .mutReq => caseMutReq x i k
    | .mutResp wp wl cp cl => caseMutResp x i k wp wl cp cl
    | .ecdh p l => caseEcdh x i k m p l
    | .invalid =>
      Cmd.mod authReset
      throw (.sw SW.wrongData)

/-! ### Administration -/

/-- `#ifndef FUZZ if (!in_admin_status) EXCEPT(..)`. -/
def needAdmin : M Unit := do
  let r ← Cmd.get
  if !r.admin then throw (.sw SW.security)

/-- `piv_put_data` (`piv.c:831-877`). -/
def putData (c : Capdu) : M Reply := do
  needAdmin
  if c.p1 != 0x3F || c.p2 != 0xFF then throw (.sw SW.wrongP1P2)
  let r ← Cmd.get
  match r.write with
  | none =>
    if c.lc < 5 then throw (.sw SW.wrongLength)
    let size := c.lc - 5
    let d0 ← Cmd.mem (rd c.data 0)
    if d0 != 0x5C then throw (.sw SW.wrongData)
    let d1 ← Cmd.mem (rd c.data 1)
    let d2 ← Cmd.mem (rd c.data 2)
    let d3 ← Cmd.mem (rd c.data 3)
    if d1 != 3 || d2 != 0x5F || d3 != 0xC1 then throw (.sw SW.fileNotFound)
    let d4 ← Cmd.mem (rd c.data 4)
    let maxLen := capOf d4
    match objOf d4 with
    | none => throw (.sw SW.fileNotFound)
    | some o =>
      if size > maxLen then throw (.sw SW.wrongLength)
      Cmd.wrOr (fun f => some (f.setObj o (c.data.drop 5))) ioErr
      if c.cla &&& 0x10 != 0 && size < maxLen then
        Cmd.mod fun r => { r with write := some (maxLen - size), path := some o }
      return .sw SW.ok
  | some n =>
    match r.path with
    | none => throw ioErr
    | some o =>
      if c.lc > n then
        Cmd.mod fun r => { r with write := none, path := none }
        throw (.sw SW.wrongLength)
      Cmd.mod fun r => { r with write := some (n - c.lc) }
      Cmd.wrOr (fun f => some (f.setObj o ((f.objs o).getD [] ++ c.data))) ioErr
      if c.cla &&& 0x10 == 0 then
        Cmd.mod fun r => { r with write := none, path := none }
      return .sw SW.ok

/-- The slot of a reference other than the management key (`piv.c:892-896`, `949-953`). -/
def slotOf (id : Byte) : Option Slot :=
  match refOf id with
  | some (.slot s) => some s
  | _ => none

/-- The key material with the policies of its metadata, as `ck_key_t` holds them for the parsers. -/
def withPol (m : KeyMat) (i : Meta) : KeyMat := { m with pinPolicy := i.pin, touchPolicy := i.touch }

/-- `piv_generate_asymmetric_key_pair` (`piv.c:879-922`). -/
def generate (x : Ext) (i : In) : M Reply := do
  let c := i.c
  needAdmin
  if c.lc < 5 then throw (.sw SW.wrongLength)
  let d0 ← Cmd.mem (rd c.data 0)
  let d2 ← Cmd.mem (rd c.data 2)
  let d3 ← Cmd.mem (rd c.data 3)
  if c.p1 != 0 || d0 != 0xAC || d2 != 0x80 || d3 != 0x01 then throw (.sw SW.wrongData)
  match slotOf c.p2 with
  | none => throw (.sw SW.wrongP1P2)
  | some s =>
    let (_, m) ← readKey s
    let d4 ← Cmd.mem (rd c.data 4)
    let r ← Cmd.get
    let t := keyType r.alg d4
    if t == .none then throw (.sw SW.wrongData)
    if !t.isEcc && !t.isRsa then throw ioErr
    match i.gen t with
    | none => throw ioErr
    | some key =>
      match ← Cmd.mem (Key.policies (withPol key m) (c.data.drop 5)) with
      | .error _ => throw (.sw SW.wrongData)
      | .ok key =>
        writeKey s key { m with type := t, origin := 1, pin := key.pinPolicy, touch := key.touchPolicy }
        match encodePub x.cr t key with
        | none => throw ioErr
        | some p => return .resp ([0x7F, 0x49] ++ p) SW.ok

/-- `piv_set_management_key` (`piv.c:924-935`). -/
def setMgmt (c : Capdu) : M Reply := do
  if c.p1 != 0xFF || c.p2 != 0xFF then throw (.sw SW.wrongP1P2)
  if c.lc != 27 then throw (.sw SW.wrongLength)
  let d0 ← Cmd.mem (rd c.data 0)
  let d1 ← Cmd.mem (rd c.data 1)
  let d2 ← Cmd.mem (rd c.data 2)
  if d0 != 0x03 || d1 != 0x9B || d2 != 24 then throw (.sw SW.wrongData)
  needAdmin
  Cmd.wrOr (fun f => some { f with mgmt := some { (f.mgmt.getD ⟨[], none, none⟩) with key := c.data.drop 3 } }) ioErr
  let dflt : Byte := if c.data.drop 3 = defaultMgmt then 1 else 0
  Cmd.wrOr (fun f => f.mgmt.map fun m => { f with mgmt := some { m with dflt := some dflt } }) ioErr
  return .sw SW.ok

/-- `piv_reset` (`piv.c:937-943`). The second counter is only read when the first is not positive; the result of
`piv_install` is ignored. -/
def resetCmd (i : In) : M Reply := do
  let c := i.c
  if c.p1 != 0x00 || c.p2 != 0x00 then throw (.sw SW.wrongP1P2)
  if c.lc != 0 then throw (.sw SW.wrongLength)
  let n ← onPin .pin Pin.getRetries
  if n.getD 0 > 0 then throw (.sw SW.security)
  let n ← onPin .puk Pin.getRetries
  if n.getD 0 > 0 then throw (.sw SW.security)
  let _ ← (Cmd.lift (install true i.rnd).run : M (Except Reply Unit))
  return .sw SW.ok

/-- `piv_import_asymmetric_key` (`piv.c:945-980`). `KEY_ERR_LENGTH` is -1, also returned for a type that cannot be
imported (`/repo/include/key.h:9`, `/repo/src/key.c:200`). -/
def importKey (x : Ext) (c : Capdu) : M Reply := do
  needAdmin
  match slotOf c.p2 with
  | none => throw (.sw SW.wrongP1P2)
  | some s =>
    let (key, m) ← readKey s
    let r ← Cmd.get
    let t := keyType r.alg c.p1
    if t == .none then throw (.sw SW.wrongP1P2)
    if !t.isEcc && !t.isRsa then throw (.sw SW.wrongLength)
    match ← Cmd.mem (Key.parsePiv (x.cr.imp t) (x.cr.kt t) (withPol key m) c.data).run with
    | .error .length | .error .other => throw (.sw SW.wrongLength)
    | .error .data => throw (.sw SW.wrongData)
    | .error .proc => throw (.sw SW.unable)
    | .ok key =>
      writeKey s key { m with type := t, origin := 2, pin := key.pinPolicy, touch := key.touchPolicy }
      return .sw SW.ok

/-- `pin_get_default_retries` (`/repo/src/pin.c:83-89`) as the code uses it: a negative value is truncated to a
byte because the wrong variable is tested (`piv.c:994-995`). -/
def defaultRetries (w : Which) : M Byte := do
  match ← onPin w Pin.rdDflt with
  | none => return 0xFF
  | some d => return d

/-- The attribute `TAG_PIN_KEY_DEFAULT`. -/
def Flash.dfltOf (f : Flash) : Which → Option Byte
  | .pin => f.pinDflt
  | .puk => f.pukDflt

/-- `piv_get_metadata` (`piv.c:982-1069`). -/
def getMetadata (x : Ext) (c : Capdu) : M Reply := do
  if c.p1 != 0x00 then throw (.sw SW.wrongP1P2)
  if c.lc != 0 then throw (.sw SW.wrongLength)
  if c.p2 == 0x80 || c.p2 == 0x81 then
    let w : Which := if c.p2 == 0x80 then .pin else .puk
    let v ← Cmd.rdOr (fun f => f.dfltOf w) ioErr
    let d ← defaultRetries w
    match ← onPin w Pin.getRetries with
    | none => throw ioErr
    | some n => return .resp [0x01, 0x01, 0xFF, 0x05, 0x01, v, 0x06, 0x02, d, UInt8.ofNat n] SW.ok
  else if c.p2 == 0x9B then
    let v ← Cmd.rdOr (fun f => f.mgmt.bind (·.dflt)) ioErr
    return .resp [0x01, 0x01, 0x03, 0x02, 0x02, 0x00, 0x01, 0x05, 0x01, v] SW.ok
  else
    match slotOf c.p2 with
    | none => throw (.sw SW.refNotFound)
    | some s =>
      let (key, m) ← readKey s
      if m.type == .none then throw (.sw SW.refNotFound)
      let r ← Cmd.get
      match encodePub x.cr m.type key with
      | none => throw ioErr
      | some p =>
        return .resp ([0x01, 0x01, algId r.alg m.type, 0x02, 0x02, m.pin, m.touch, 0x03, 0x01, m.origin, 0x04] ++ p) SW.ok

/-- `piv_get_version` (`piv.c:1071-1079`) and `piv_get_serial` (`piv.c:1081-1087`). -/
def getInfo (c : Capdu) (d : Bytes) : M Reply := do
  if c.p1 != 0x00 || c.p2 != 0x00 then throw (.sw SW.wrongP1P2)
  if c.lc != 0 then throw (.sw SW.wrongLength)
  return .resp d SW.ok

/-- The seven bytes of the configuration. -/
def Alg.bytes (a : Alg) : Bytes := [a.enabled, a.ed25519, a.rsa3072, a.rsa4096, a.x25519, a.secp256k1, a.sm2]

/-- `piv_algorithm_extension` (`piv.c:1089-1110`). -/
def algExt (c : Capdu) : M Reply := do
  needAdmin
  if c.p1 != 0x01 && c.p1 != 0x02 then throw (.sw SW.wrongP1P2)
  if c.p2 != 0x00 then throw (.sw SW.wrongP1P2)
  if c.p1 == 0x01 then
    let a ← Cmd.rdOr (fun f => f.alg) ioErr
    return .resp a.bytes SW.ok
  else
    match c.data with
    | [b0, b1, b2, b3, b4, b5, b6] =>
      if b0 != 0 && b0 != 1 then throw (.sw SW.wrongData)
      Cmd.wrOr (fun f => some { f with alg := some ⟨b0, b1, b2, b3, b4, b5, b6⟩ }) ioErr
      Cmd.mod fun r => { r with alg := ⟨b0, b1, b2, b3, b4, b5, b6⟩ }
      return .sw SW.ok
    | _ => throw (.sw SW.wrongLength)

/-- The `switch` of `piv_process_apdu` (`piv.c:1124-1175`). -/
def dispatch (x : Ext) (i : In) : M Reply :=
  let c := i.c
  if c.ins == 0xA4 then select c
  else if c.ins == 0xCB then getData c
  else if c.ins == 0xC0 then getDataResponse c
  else if c.ins == 0x20 then verify x i
  else if c.ins == 0x24 then changeRef x i
  else if c.ins == 0x2C then resetRetry x i
  else if c.ins == 0x87 then genAuth x i
  else if c.ins == 0xDB then putData c
  else if c.ins == 0x47 then generate x i
  else if c.ins == 0xFF then setMgmt c
  else if c.ins == 0xFB then resetCmd i
  else if c.ins == 0xFE then importKey x c
  else if c.ins == 0xFD then getInfo c [0x05, 0x07, 0x00]
  else if c.ins == 0xF8 then getInfo c i.sn
  else if c.ins == 0xF7 then getMetadata x c
  else if c.ins == 0xEE then algExt c
  else throw (.sw SW.insNotSupported)

/-- `piv_process_apdu` (`piv.c:1112-1178`). -/
def process (x : Ext) (i : In) : M Reply := do
  let c := i.c
  if !(c.cla == 0x00 || (c.cla == 0x10 && c.ins == 0xDB)) then throw (.sw SW.claNotSupported)
  if c.ins != 0xDB then Cmd.mod fun r => { r with write := none }
  if c.ins != 0xC0 then Cmd.mod fun r => { r with read := none }
  dispatch x i

/-! ### Histories -/

/-- RAM at power-on: zero-initialised statics, `last_touch = UINT32_MAX`. -/
def Ram.init : Ram :=
  ⟨.none, List.replicate 8 0, false, false, none, some 0, some 0, 0xFFFFFFFF, ⟨0, 0, 0, 0, 0, 0, 0⟩, ⟨false⟩, ⟨false⟩⟩

/-- Everything that can happen to the applet. -/
inductive Op where
  | apdu (i : In)
  /-- another applet is selected (`/repo/src/apdu.c:14-38`) -/
  | deselect
  /-- `piv_install(1)` called by the admin applet -/
  | factory (rnd : Nat → Byte)
  /-- power is lost and comes back; `applets_install` calls `piv_install(0)` -/
  | boot (rnd : Nat → Byte)

/-- What is observed. -/
inductive Out where
  | reply (r : Reply)
  | none
  /-- power was cut during the operation -/
  | cut
  deriving DecidableEq, Repr

/-- `ram` is `none` while the device is off. -/
structure St where
  flash : Flash
  ram : Option Ram

/-- Run a command. -/
def exec (m : M Reply) (f : Flash) (r : Ram) (env : Env) : St × Out :=
  match runCmd m f r env with
  | (f, _, .cut) => (⟨f, none⟩, .cut)
  | (f, r, .done a) => (⟨f, some r⟩, .reply a)

/-- `piv_install` as a command. -/
def installOp (reset : Bool) (rnd : Nat → Byte) : M Reply := do
  install reset rnd
  return .sw SW.ok

def step (x : Ext) (s : St) (op : Op) (env : Env) : St × Out :=
  match op, s.ram with
  | .boot rnd, _ => exec (installOp false rnd) s.flash Ram.init env
  | _, none => (s, .none)
  | .apdu i, some r => exec (process x i) s.flash r env
  | .factory rnd, some r => exec (installOp true rnd) s.flash r env
  | .deselect, some r => (⟨s.flash, some (poweroff r)⟩, .none)

/-- Run a history; the log holds, newest first, every operation with the state before it and what was
observed. -/
def run (x : Ext) (s : St) (log : List (St × Op × Out)) : List (Op × Env) → St × List (St × Op × Out)
  | [] => (s, log)
  | (op, env) :: h => run x (step x s op env).1 ((s, op, (step x s op env).2) :: log) h

end Verif.Piv
