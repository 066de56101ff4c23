import Verif.Base.Zoom
import Verif.Model.Apdu
import Verif.Model.Pin
import Verif.Model.KeyFile
/-
Model of the OpenPGP applet (`/repo/applets/openpgp/openpgp.c`, `/repo/applets/openpgp/key.c`); line numbers refer
to the former.

Simplifications: the response buffer is kept apart from the command data; key material is structured (`KeyMat`)
instead of an image of `rsa_key_t`; `write_file` on a missing file is one step; blinking is left out. An
uninitialised `uint8_t` whose address was taken holds an arbitrary value (`In.junk`).
-/
namespace Verif.Pgp
open Verif.Apdu (Capdu)
open Verif.Key (KeyMat)
open Verif.KeyFile

/-- The three keys and certificates (`openpgp.c:15-20`). -/
inductive K where
  | sig | dec | aut
  deriving DecidableEq, Repr

/-- A key file with the attributes `KEY_META_ATTR`, `ATTR_FINGERPRINT` and `ATTR_DATETIME`
(`/repo/applets/openpgp/key.c:5-6`). -/
structure PKey where
  mat : KeyMat
  info : Option Meta
  fp : Option Bytes
  date : Option Bytes
  deriving DecidableEq, Repr

/-- The file `pgp-data`: its contents and attributes. -/
structure Data where
  url : Bytes
  login : Option Bytes
  name : Option Bytes
  lang : Option Bytes
  sex : Option Bytes
  pwStatus : Option Byte
  ca1 : Option Bytes
  ca2 : Option Bytes
  ca3 : Option Bytes
  cache : Option Byte
  ctr : Option (Byte × Byte × Byte)
  term : Option Byte
  deriving DecidableEq, Repr

/-- A new file. -/
def Data.empty : Data := ⟨[], none, none, none, none, none, none, none, none, none, none, none⟩

/-- Flash. -/
structure Flash where
  data : Option Data
  keys : K → Option PKey
  certs : K → Option Bytes
  pw1 : Pin.Flash
  pw3 : Pin.Flash
  rc : Pin.Flash

/-- `state` (`openpgp.c:40-42`). -/
inductive CertState where
  | normal | selectData | getCert
  deriving DecidableEq, Repr

/-- The static variables (`openpgp.c:96-101`). `m81`, `m82` are the bits of `pw1_mode`. -/
structure Ram where
  m81 : Bool
  m82 : Bool
  occ : Byte
  state : CertState
  pw1 : Pin.Ram
  pw3 : Pin.Ram
  rc : Pin.Ram
  cache : Byte
  lastTouch : Nat
  deriving DecidableEq, Repr

/-- What the applet relies on. `neq` is the value of `memcmp_s` on different buffers, `rsaDec` is
`rsa_decrypt_pkcs_v15`, whose error carries `invalid_padding`. -/
structure Ext where
  neq : Int
  cr : Crypto
  rsaDec : KeyMat → Bytes → Except Bool Bytes

/-- A command and what the environment contributes to it. -/
structure In where
  c : Capdu
  /-- the bytes of the command buffer behind the command data, and the byte in front of them if there is one -/
  tail : Bytes
  before : Option Byte
  /-- unspecified stack contents -/
  stack : Bytes
  junk : Byte
  /-- `random_buffer` -/
  rnd : Nat → Byte
  /-- `ecc_generate`/`rsa_generate_key` -/
  gen : KTy → Option KeyMat
  nfc : Bool
  /-- `wait_for_user_presence` succeeded -/
  present : Bool
  /-- `device_get_tick` before and after the wait -/
  tick : Nat
  tick' : Nat
  /-- `fill_sn` -/
  sn : Bytes

abbrev M := Cmd Flash Ram Reply

/-- The three PINs (`openpgp.c:97-99`). -/
inductive Which where
  | pw1 | pw3 | rc
  deriving DecidableEq, Repr

/-- The file of a PIN. -/
def partF : Which → Part Flash Pin.Flash
  | .pw1 => ⟨(·.pw1), fun p f => { f with pw1 := p }⟩
  | .pw3 => ⟨(·.pw3), fun p f => { f with pw3 := p }⟩
  | .rc => ⟨(·.rc), fun p f => { f with rc := p }⟩

/-- The variable of a PIN. -/
def partR : Which → Part Ram Pin.Ram
  | .pw1 => ⟨(·.pw1), fun p r => { r with pw1 := p }⟩
  | .pw3 => ⟨(·.pw3), fun p r => { r with pw3 := p }⟩
  | .rc => ⟨(·.rc), fun p r => { r with rc := p }⟩

/-- A call into `pin.c`. -/
def onPin {α : Type} (w : Which) (m : Pin.M α) : M α := Cmd.zoom (partF w) (partR w) (Cmd.lift m)

/-- The lengths of the PINs (`openpgp.c:97-99`). -/
def pinCfg (x : Ext) : Which → Pin.Cfg
  | .pw1 => ⟨6, 64, x.neq⟩
  | _ => ⟨8, 64, x.neq⟩

/-- `return -1` seen by the host (`openpgp.c:1384`). -/
def ioErr : Reply := .sw SW.unable

/-- Replace a key file. -/
def Flash.setKey (f : Flash) (k : K) (p : PKey) : Flash :=
  { f with keys := fun k' => if k' = k then some p else f.keys k' }

/-- Replace a certificate. -/
def Flash.setCert (f : Flash) (k : K) (d : Bytes) : Flash :=
  { f with certs := fun k' => if k' = k then some d else f.certs k' }

/-- `write_attr(DATA_PATH, ..)`; fails on a missing file. An error is answered with `e`. -/
def setData (g : Data → Data) (e : Reply := ioErr) : M Unit :=
  Cmd.wrOr (fun f => f.data.map fun d => { f with data := some (g d) }) e

/-- `write_attr(key_path, ..)`; fails on a missing file. -/
def setKey (k : K) (g : PKey → PKey) : M Unit :=
  Cmd.wrOr (fun f => (f.keys k).map fun p => f.setKey k (g p)) ioErr

/-- `read_attr(DATA_PATH, ..)`. -/
def getAttr {α : Type} (g : Data → Option α) (e : Reply := ioErr) : M α := Cmd.rdOr (fun f => f.data.bind g) e

/-- `ck_write_key` (`/repo/src/key.c:386-390`). -/
def writeKey (k : K) (m : KeyMat) (i : Meta) : M Unit := do
  Cmd.wrOr (fun f => some (f.setKey k { ((f.keys k).getD ⟨m, none, none, none⟩) with mat := m })) ioErr
  setKey k fun p => { p with info := some i }

/-- `ck_read_key_metadata` (`/repo/src/key.c:372-374`). -/
def readMeta (k : K) : M Meta := Cmd.rdOr (fun f => (f.keys k).bind (·.info)) ioErr

/-- `ck_read_key` (`/repo/src/key.c:380-384`). -/
def readKey (k : K) : M (KeyMat × Meta) := do
  let i ← readMeta k
  let m ← Cmd.rdOr (fun f => (f.keys k).map (·.mat)) ioErr
  return (m, i)

/-- `get_key_path` (`openpgp.c:135-146`). -/
def keyOf (tag : Byte) : Option K :=
  if tag == 0xB6 then some .sig
  else if tag == 0xB8 then some .dec
  else if tag == 0xA4 then some .aut
  else none

/-- `reset_sig_counter` (`openpgp.c:148-152`). -/
def resetCtr (e : Reply := ioErr) : M Unit := setData (fun d => { d with ctr := some (0, 0, 0) }) e

/-! ### Installation -/

/-- `openpgp_poweroff` (`openpgp.c:185-190`). -/
def poweroff (r : Ram) : Ram :=
  { r with m81 := false, m82 := false, pw1 := ⟨false⟩, pw3 := ⟨false⟩, state := .normal }

/-- Twenty zeros, `buf` of `openpgp.c:210-211`. -/
def zero20 : Bytes := List.replicate 20 0

/-- The blocks of `openpgp.c:212-227`; `RSA2048`, no key present. -/
def installKey (k : K) (usage : Byte) : M Unit := do
  writeKey k zeroMat ⟨.rsa2048, 0, usage, 0, 0⟩
  setKey k fun p => { p with fp := some zero20 }
  setKey k fun p => { p with date := some (zero20.take 4) }

/-- The cardholder data (`openpgp.c:197-208`). -/
def installData : M Unit := do
  Cmd.wrOr (fun f => some { f with data := some { (f.data.getD Data.empty) with url := [] } }) ioErr
  setData fun d => { d with term := some 1 }
  setData fun d => { d with login := some [] }
  setData fun d => { d with name := some [] }
  setData fun d => { d with lang := some [] }
  setData fun d => { d with sex := some [0x39] }
  setData fun d => { d with pwStatus := some 0 }

/-- The rest of the attributes and the certificates (`openpgp.c:229-243`). -/
def installRest : M Unit := do
  setData fun d => { d with ca1 := some zero20 }
  setData fun d => { d with ca2 := some zero20 }
  setData fun d => { d with ca3 := some zero20 }
  Cmd.mod fun r => { r with cache := 0 }
  setData fun d => { d with cache := some 0 }
  resetCtr
  Cmd.wrOr (fun f => some (f.setCert .sig [])) ioErr
  Cmd.wrOr (fun f => some (f.setCert .dec [])) ioErr
  Cmd.wrOr (fun f => some (f.setCert .aut [])) ioErr

/-- `pin_create` (`openpgp.c:246-248`). -/
def createPin (w : Which) (d : Bytes) : M Unit := do
  let rc ← onPin w (Pin.create d 3)
  if rc != .ok then throw ioErr

/-- "123456" and "12345678". -/
def pw1Default : Bytes := [0x31, 0x32, 0x33, 0x34, 0x35, 0x36]
def pw3Default : Bytes := [0x31, 0x32, 0x33, 0x34, 0x35, 0x36, 0x37, 0x38]

/-- `openpgp_install` from `openpgp.c:196` on. -/
def installAll : M Unit := do
  installData
  installKey .sig 1
  installKey .dec 2
  installKey .aut 1
  installRest
  createPin .pw1 pw1Default
  createPin .pw3 pw3Default
  createPin .rc []
  setData fun d => { d with term := some 0 }

/-- `openpgp_install` (`openpgp.c:192-254`); leaving early is `return -1`. -/
def install (reset : Bool) : M Unit := do
  Cmd.mod poweroff
  if reset then installAll
  else if (← Cmd.rdF fun f => f.data).isSome then return ()
  else installAll

/-! ### Reading -/

/-- `aid` (`openpgp.c:64-68`). -/
def aid : Bytes := [0xD2, 0x76, 0x00, 0x01, 0x24, 0x01, 0x03, 0x04, 0xf1, 0xd0, 0, 0, 0, 0, 0, 0]

/-- `aid` with the serial number at offset 10 (`openpgp.c:275-278`, `331-333`). -/
def aidSn (i : In) : Bytes := aid.take 10 ++ i.sn ++ aid.drop (10 + i.sn.length)

/-- `historical_bytes`, `extended_length_info`, `extended_capabilities` (`openpgp.c:70-93`). -/
def historical : Bytes := [0x00, 0x31, 0xC5, 0x73, 0xC0, 0x01, 0x40, 0x05, 0x90, 0x00]
def extLength : Bytes := [0x02, 0x02, 0x05, 0x3C, 0x02, 0x02, 0x05, 0x3C]
def extCaps : Bytes := [0x74, 0x00, 0x05, 0x3C, 0x04, 0x80, 0x00, 0xFF, 0x00, 0x00]

/-- `algo_attr` (`openpgp.c:50-61`) without the length byte. -/
def algoAttr : KTy → Bytes
  | .secp256r1 => [0x00, 0x2A, 0x86, 0x48, 0xCE, 0x3D, 0x03, 0x01, 0x07]
  | .secp256k1 => [0x00, 0x2B, 0x81, 0x04, 0x00, 0x0A]
  | .secp384r1 => [0x00, 0x2B, 0x81, 0x04, 0x00, 0x22]
  | .secp521r1 => [0x00, 0x2B, 0x81, 0x04, 0x00, 0x23]
  | .sm2 => [0x00, 0x06, 0x08, 0x2A, 0x81, 0x1C, 0xCF, 0x55, 0x01, 0x82, 0x2D]
  | .ed25519 => [0x16, 0x2B, 0x06, 0x01, 0x04, 0x01, 0xDA, 0x47, 0x0F, 0x01]
  | .x25519 => [0x12, 0x2B, 0x06, 0x01, 0x04, 0x01, 0x97, 0x55, 0x01, 0x05, 0x01]
  | .rsa2048 => [0x01, 0x08, 0x00, 0x00, 0x20, 0x02]
  | .rsa3072 => [0x01, 0x0C, 0x00, 0x00, 0x20, 0x02]
  | .rsa4096 => [0x01, 0x10, 0x00, 0x00, 0x20, 0x02]
  | .tdea | .none => []

/-- `fill_attr` (`openpgp.c:154-166`) with the length byte in front. A type without an entry is not present in any key
of this applet; `algo_attr` would be read out of bounds. -/
def fillAttr (m : Meta) : M Bytes := do
  let a := algoAttr m.type
  if m.type == .tdea || m.type == .none then throw (.ub .oob)
  if m.type.isWei then
    if m.usage == 1 then return lo a.length :: 0x13 :: a.drop 1
    else if m.usage == 2 then return lo a.length :: 0x12 :: a.drop 1
    else throw ioErr
  else return lo a.length :: a

/-- `get_touch_policy` (`openpgp.c:168-179`) as a byte. -/
def uifOf (touch : Byte) : Byte := if touch == 0 then 0 else if touch == 3 then 1 else if touch == 4 then 2 else 0xFF

/-- `openpgp_select` (`openpgp.c:256-261`). -/
def select (c : Capdu) : M Reply := do
  if c.p1 != 0x04 || c.p2 != 0x00 then throw (.sw SW.wrongP1P2)
  if c.data != aid.take 6 then throw (.sw SW.fileNotFound)
  let t ← getAttr (·.cache)
  Cmd.mod fun r => { r with cache := t }
  return .sw SW.ok

/-- `pin_get_retries` with an error check. -/
def retries (w : Which) : M Byte := do
  match ← onPin w Pin.getRetries with
  | none => throw ioErr
  | some n => return UInt8.ofNat n

/-- The PW status bytes (`openpgp.c:380-394`, `501-516`). -/
def pwStatus : M Bytes := do
  let s ← getAttr (·.pwStatus)
  let a ← retries .pw1
  let b ← retries .rc
  let c ← retries .pw3
  return [s, 64, 64, 64, a, b, c]

/-- The discretionary data objects (`openpgp.c:354-458`) without tag and length. -/
def discretionary (ms md ma : Meta) : M Bytes := do
  let s ← fillAttr ms
  let d ← fillAttr md
  let a ← fillAttr ma
  let pw ← pwStatus
  let f1 ← Cmd.rdOr (fun f => (f.keys .sig).bind (·.fp)) ioErr
  let f2 ← Cmd.rdOr (fun f => (f.keys .dec).bind (·.fp)) ioErr
  let f3 ← Cmd.rdOr (fun f => (f.keys .aut).bind (·.fp)) ioErr
  let c1 ← getAttr (·.ca1)
  let c2 ← getAttr (·.ca2)
  let c3 ← getAttr (·.ca3)
  let d1 ← Cmd.rdOr (fun f => (f.keys .sig).bind (·.date)) ioErr
  let d2 ← Cmd.rdOr (fun f => (f.keys .dec).bind (·.date)) ioErr
  let d3 ← Cmd.rdOr (fun f => (f.keys .aut).bind (·.date)) ioErr
  return [0xC0, 10] ++ extCaps ++ [0xC1] ++ s ++ [0xC2] ++ d ++ [0xC3] ++ a ++ [0xC4, 7] ++ pw ++
    [0xC5, 60] ++ f1 ++ f2 ++ f3 ++ [0xC6, 60] ++ c1 ++ c2 ++ c3 ++ [0xCD, 12] ++ d1 ++ d2 ++ d3 ++
    [0xDE, 6, 1, ms.origin, 2, md.origin, 3, ma.origin] ++
    [0xD6, 2, uifOf ms.touch, 0x20, 0xD7, 2, uifOf md.touch, 0x20, 0xD8, 2, uifOf ma.touch, 0x20]

/-- The application related data (`openpgp.c:324-464`). -/
def appData (i : In) (ms md ma : Meta) : M Reply := do
  let ddo ← discretionary ms md ma
  let body := [0x4F, 16] ++ aidSn i ++ [0x5F, 0x52, 10] ++ historical ++ [0x7F, 0x66, 8] ++ extLength ++
    [0x7F, 0x74, 3, 0x81, 1, 0x20] ++ [0x73, 0x82, hi ddo.length, lo ddo.length] ++ ddo
  return .resp ([0x6E, 0x82, hi body.length, lo body.length] ++ body) SW.ok

/-- One entry of the algorithm information (`openpgp.c:529-536`). -/
def algoInfo (tag : Byte) (t : KTy) (id : Byte) : Bytes :=
  let a := algoAttr t
  tag :: lo a.length :: id :: a.drop 1

/-- The algorithm information (`openpgp.c:538-571`). -/
def algoInfos : Bytes :=
  let key (tag : Byte) (ec : Byte) (last : KTy × Byte) : Bytes :=
    algoInfo tag .rsa2048 1 ++ algoInfo tag .rsa3072 1 ++ algoInfo tag .rsa4096 1 ++ algoInfo tag .secp256r1 ec ++
    algoInfo tag .secp256k1 ec ++ algoInfo tag .secp384r1 ec ++ algoInfo tag .secp521r1 ec ++
    algoInfo tag last.1 last.2 ++ algoInfo tag .sm2 ec
  key 0xC1 0x13 (.ed25519, 0x16) ++ key 0xC2 0x12 (.x25519, 0x12) ++ key 0xC3 0x13 (.ed25519, 0x16)

/-- The certificate selected by `current_occurrence` (`openpgp.c:476-487`, `1002-1009`). -/
def certOf (occ : Byte) : Option K :=
  if occ == 0 then some .sig else if occ == 1 then some .dec else if occ == 2 then some .aut else none

/-- `read_file(.., RDATA, 0, MAX_CERT_LENGTH)`. -/
def readCert (k : K) : M Reply := do
  let d ← Cmd.rdOr (fun f => (f.certs k).map (·.take 0x480)) ioErr
  return .resp d SW.ok

/-- The tag in P1 P2. -/
def tagOf (c : Capdu) : Nat := c.p1.toNat * 256 + c.p2.toNat

/-- `openpgp_get_data` (`openpgp.c:263-582`). -/
def getData (i : In) : M Reply := do
  let c := i.c
  if c.lc != 0 then throw (.sw SW.wrongLength)
  let ms ← readMeta .sig
  let md ← readMeta .dec
  let ma ← readMeta .aut
  if tagOf c = 0x4F then return .resp (aidSn i) SW.ok
  else if tagOf c = 0x5E then return .resp (← getAttr (·.login)) SW.ok
  else if tagOf c = 0x5F50 then
    return .resp (← Cmd.rdOr (fun f => f.data.map (·.url.take 255)) ioErr) SW.ok
  else if tagOf c = 0x5F52 then return .resp historical SW.ok
  else if tagOf c = 0x65 then
    let n ← getAttr (·.name)
    let l ← getAttr (·.lang)
    let s ← getAttr (·.sex)
    let b := [0x5B, lo n.length] ++ n ++ [0x5F, 0x2D, lo l.length] ++ l ++ [0x5F, 0x35, lo s.length] ++ s
    return .resp ([0x65, lo b.length] ++ b) SW.ok
  else if tagOf c = 0x6E then appData i ms md ma
  else if tagOf c = 0x7A then
    let (a, b, c) ← getAttr (·.ctr)
    return .resp [0x7A, 5, 0x93, 3, a, b, c] SW.ok
  else if tagOf c = 0x7F21 then
    let r ← Cmd.get
    match certOf r.occ with
    | none => throw (.sw SW.refNotFound)
    | some k => readCert k
  else if tagOf c = 0x7F66 then return .resp extLength SW.ok
  else if tagOf c = 0x7F74 then return .resp [0x81, 1, 0x20] SW.ok
  else if tagOf c = 0xC4 then return .resp (← pwStatus) SW.ok
  else if tagOf c = 0xDE then return .resp [1, ms.origin, 2, md.origin, 3, ma.origin] SW.ok
  else if tagOf c = 0xFA then return .resp algoInfos SW.ok
  else if tagOf c = 0x0102 then
    let r ← Cmd.get
    return .resp [r.cache] SW.ok
  else throw (.sw SW.refNotFound)

/-! ### PINs -/

/-- What `openpgp_verify` does to `pw1_mode` at the start (`openpgp.c:588-598`); `none` for an unknown reference. -/
def verifyWhich (p2 : Byte) : Option (Which × (Ram → Ram)) :=
  if p2 == 0x81 then some (.pw1, fun r => { r with m81 := false })
  else if p2 == 0x82 then some (.pw1, fun r => { r with m82 := false })
  else if p2 == 0x83 then some (.pw3, id)
  else none

/-- `pin_t.is_validated`. -/
def Ram.pin (r : Ram) (w : Which) : Pin.Ram := (partR w).get r

/-- `openpgp_verify` (`openpgp.c:584-625`). `LC` is passed as a `uint8_t`. -/
def verify (x : Ext) (i : In) : M Reply := do
  let c := i.c
  if c.p1 != 0x00 && c.p1 != 0xFF then throw (.sw SW.wrongP1P2)
  match verifyWhich c.p2 with
  | none => throw (.sw SW.wrongP1P2)
  | some (w, off) =>
    Cmd.mod off
    if c.p1 == 0xFF then
      Cmd.mod ((partR w).set ⟨false⟩)
      return .sw SW.ok
    if c.lc == 0 then
      let r ← Cmd.get
      if (r.pin w).validated then return .sw SW.ok
      match ← onPin w Pin.getRetries with
      | none => throw ioErr
      | some n => throw (.sw (SW.pinRetries + n))
    let (rc, ctr) ← onPin w (Pin.verify (pinCfg x w) i.stack c.data (UInt8.ofNat c.lc))
    if rc == .ioFail then throw ioErr
    if rc == .lengthInvalid then throw (.sw SW.wrongLength)
    if ctr.getD i.junk == 0 then throw (.sw SW.blocked)
    if rc == .authFail then throw (.sw SW.security)
    if c.p2 == 0x81 then Cmd.mod fun r => { r with m81 := true }
    if c.p2 == 0x82 then Cmd.mod fun r => { r with m82 := true }
    return .sw SW.ok

/-- The common part of CHANGE REFERENCE DATA and RESET RETRY COUNTER (`openpgp.c:640-645`, `659-665`): verify the
first bytes of the data against `w`, whose length is `size` (`none` is -1). The length that `pin_verify` gets is
converted to `uint8_t`. -/
def verifyFirst (x : Ext) (i : In) (w : Which) (size : Option Nat) : M Unit := do
  let len := match size with
    | none => 255
    | some n => UInt8.ofNat (min i.c.lc n)
  let (rc, ctr) ← onPin w (Pin.verify (pinCfg x w) i.stack i.c.data len)
  if rc == .ioFail then throw ioErr
  if ctr.getD i.junk == 0 then throw (.sw SW.blocked)
  if rc == .authFail then throw (.sw SW.security)

/-- `LC < pw_length` and `pin_update(pw, DATA + pw_length, LC - pw_length)` (`openpgp.c:646-649`, `672-676`); for the
length -1 the new PIN starts at the byte in front of the data. -/
def updateRest (x : Ext) (i : In) (w : Which) (size : Option Nat) : M Unit := do
  let c := i.c
  let rc ← match size with
    | none =>
      match i.before with
      | none => throw (.ub .oob)
      | some b => onPin w (Pin.update (pinCfg x w) (b :: c.data) (UInt8.ofNat (c.lc + 1)))
    | some n =>
      if c.lc < n then throw (.sw SW.wrongLength)
      else onPin w (Pin.update (pinCfg x w) (c.data.drop n) (UInt8.ofNat (c.lc - n)))
  if rc == .ioFail then throw ioErr
  if rc == .lengthInvalid then throw (.sw SW.wrongLength)

/-- `openpgp_change_reference_data` (`openpgp.c:627-652`). -/
def changeRef (x : Ext) (i : In) : M Reply := do
  let c := i.c
  if c.p1 != 0x00 then throw (.sw SW.wrongP1P2)
  if c.p2 == 0x81 then
    Cmd.mod fun r => { r with m81 := false, m82 := false }
    let n ← onPin .pw1 Pin.rdSize
    verifyFirst x i .pw1 n
    updateRest x i .pw1 n
    return .sw SW.ok
  else if c.p2 == 0x83 then
    let n ← onPin .pw3 Pin.rdSize
    verifyFirst x i .pw3 n
    updateRest x i .pw3 n
    return .sw SW.ok
  else throw (.sw SW.wrongP1P2)

/-- `ASSERT_ADMIN` (`openpgp.c:111-116`). -/
def needAdmin : M Unit := do
  let r ← Cmd.get
  if !r.pw3.validated then throw (.sw SW.security)

/-- `openpgp_reset_retry_counter` (`openpgp.c:654-679`). -/
def resetRetry (x : Ext) (i : In) : M Reply := do
  let c := i.c
  if (c.p1 != 0x00 && c.p1 != 0x02) || c.p2 != 0x81 then throw (.sw SW.wrongP1P2)
  if c.p1 == 0x00 then
    let n ← onPin .rc Pin.rdSize
    if n == some 0 then throw (.sw SW.security)
    verifyFirst x i .rc n
    updateRest x i .pw1 n
    return .sw SW.ok
  else
    needAdmin
    updateRest x i .pw1 (some 0)
    return .sw SW.ok

/-! ### Using keys -/

/-- `openpgp_generate_asymmetric_key_pair` (`openpgp.c:681-723`). There is no check of PW3. -/
def generate (x : Ext) (i : In) : M Reply := do
  let c := i.c
  if c.p2 != 0x00 then throw (.sw SW.wrongP1P2)
  if c.lc != 2 && c.lc != 5 then throw (.sw SW.wrongLength)
  let d0 ← Cmd.mem (rd c.data 0)
  match keyOf d0 with
  | none => throw (.sw SW.wrongData)
  | some k =>
    let (key, m) ← readKey k
    if c.p1 == 0x80 then
      if !m.type.isEcc && !m.type.isRsa then throw ioErr
      match i.gen m.type with
      | none => throw ioErr
      | some key =>
        writeKey k key { m with origin := 1 }
        match encodePub x.cr m.type key with
        | none => throw ioErr
        | some p =>
          if k == .sig then resetCtr (.resp ([0x7F, 0x49] ++ p) SW.unable)
          return .resp ([0x7F, 0x49] ++ p) SW.ok
    else if c.p1 == 0x81 then
      if m.origin == 0 then throw (.sw SW.refNotFound)
      match encodePub x.cr m.type key with
      | none => throw ioErr
      | some p => return .resp ([0x7F, 0x49] ++ p) SW.ok
    else throw (.sw SW.wrongP1P2)

/-- `OPENPGP_TOUCH` (`openpgp.c:122-133`). -/
def touch (i : In) : M Unit := do
  if i.nfc then return ()
  let r ← Cmd.get
  if i.tick > r.lastTouch && i.tick - r.lastTouch < r.cache.toNat * 1000 then return ()
  if !i.present then throw (.sw SW.receiving)
  Cmd.mod fun r => { r with lastTouch := i.tick' }

/-- The increment of the signature counter (`openpgp.c:792-793`). -/
def incr : Byte × Byte × Byte → Byte × Byte × Byte
  | (a, b, c) =>
    if c + 1 != 0 then (a, b, c + 1)
    else if b + 1 != 0 then (a, b + 1, 0)
    else (a + 1, 0, 0)

/-- `openpgp_sign_or_auth` (`openpgp.c:725-801`). For the short Weierstrass curves zeros are put in front of the
digest inside of the command buffer (`openpgp.c:765-767`). When the counter cannot be updated, the response length
is already set. -/
def signOrAuth (x : Ext) (i : In) (isSign : Bool) : M Reply := do
  let c := i.c
  let r ← Cmd.get
  if !(if isSign then r.m81 else r.m82) then throw (.sw SW.security)
  if isSign then
    let s ← getAttr (·.pwStatus)
    if s == 0 then Cmd.mod fun r => { r with m81 := false }
  let k : K := if isSign then .sig else .aut
  let m ← readMeta k
  if m.touch == 3 || m.touch == 4 then touch i
  if m.origin == 0 then throw (.sw SW.refNotFound)
  if m.usage &&& 1 == 0 then throw (.sw SW.conditions)
  if m.type.isRsa && c.lc > x.cr.pub m.type * 2 / 5 then throw (.sw SW.wrongLength)
  if m.type.isWei && c.lc > x.cr.priv m.type then throw (.sw SW.wrongLength)
  let d := if m.type.isWei then List.replicate (x.cr.priv m.type - c.lc) 0 ++ c.data else c.data
  let (key, m) ← readKey k
  if !m.type.isEcc && !m.type.isRsa then throw ioErr
  match x.cr.sign m.type key d with
  | none => throw ioErr
  | some sg =>
    if isSign then
      let n ← getAttr (·.ctr) (.resp sg SW.unable)
      setData (fun d => { d with ctr := some (incr n) }) (.resp sg SW.unable)
    return .resp sg SW.ok

/-- One step of `parse_ecc_key_tlv` (`openpgp.c:811-860`): the tag at `off` and a length that covers the rest. -/
def wrapped (mem : Bytes) (off : Nat) (tag : Bytes) : C (Option Nat) := do
  if mem.length - off < tag.length then return none
  if (← rdRange mem off tag.length) ≠ tag then return none
  let p := off + tag.length
  match ← Key.tlvLen mem p (mem.length - p) with
  | none => return none
  | some (l, ls) => if l ≠ mem.length - p - ls then return none else return some (p + ls)

/-- `parse_ecc_key_tlv` (`openpgp.c:804-881`): the offset of the public key. -/
def eccOffset (x : Ext) (t : KTy) (mem : Bytes) : C (Option Nat) := do
  match ← wrapped mem 0 [0xA6] with
  | none => return none
  | some p =>
    match ← wrapped mem p [0x7F, 0x49] with
    | none => return none
    | some p =>
      match ← wrapped mem p [0x86] with
      | none => return none
      | some p =>
        if t.isWei then
          if mem.length - p ≠ x.cr.pub t + 1 then return none
          if (← rd mem p) ≠ 0x04 then return none
          return some (p + 1)
        else
          if mem.length - p ≠ x.cr.pub t then return none
          return some p

/-- `openpgp_decipher` (`openpgp.c:883-964`). -/
def decipher (x : Ext) (i : In) : M Reply := do
  let c := i.c
  let r ← Cmd.get
  if !r.m82 then throw (.sw SW.security)
  let m ← readMeta .dec
  if m.touch == 3 || m.touch == 4 then touch i
  if m.origin == 0 then throw (.sw SW.refNotFound)
  if m.usage &&& 2 == 0 then throw (.sw SW.conditions)
  let (key, m) ← readKey .dec
  if m.type.isRsa then
    if c.lc < x.cr.pub m.type + 1 then throw (.sw SW.wrongLength)
    let d0 ← Cmd.mem (rd c.data 0)
    if d0 != 0 then throw (.sw SW.wrongData)
    let d ← Cmd.mem (rdRange c.data 1 (x.cr.pub m.type))
    match x.rsaDec key d with
    | .error pad => throw (if pad then .sw SW.wrongData else ioErr)
    | .ok o => return .resp o SW.ok
  else if m.type.isEcc then
    if c.lc < 8 then throw (.sw SW.wrongLength)
    match ← Cmd.mem (eccOffset x m.type c.data) with
    | none => throw (.sw SW.wrongData)
    | some p =>
      let d ← Cmd.mem (rdRange c.data p (x.cr.pub m.type))
      match x.cr.ecdh m.type key d with
      | none => throw ioErr
      | some o => return .resp o SW.ok
  else throw ioErr

/-! ### Administration -/

/-- The loop of `openpgp.c:1020-1046`: which algorithm the attributes ask for. The first byte only tells RSA from the
rest. -/
def attrType (d : Bytes) : Option KTy :=
  if d.head? = some 1 then
    if d.length = 6 ∨ d.length = 9 ∨ d.length = 10 ∨ d.length = 11 then
      match d with
      | _ :: b :: 0 :: _ => if b = 0x08 then some .rsa2048 else if b = 0x0C then some .rsa3072
          else if b = 0x10 then some .rsa4096 else none
      | _ => none
    else none
  else
    [KTy.secp256r1, .secp256k1, .secp384r1, .secp521r1, .sm2, .ed25519, .x25519, .rsa2048, .rsa3072, .rsa4096].find?
      fun t => d.length = (algoAttr t).length ∧ d.drop 1 = (algoAttr t).drop 1

/-- PUT DATA of algorithm attributes (`openpgp.c:1014-1080`). -/
def putAttr (c : Capdu) (k : K) : M Reply := do
  if c.lc < 1 || c.lc > 13 then throw (.sw SW.wrongLength)
  match attrType c.data with
  | none => throw (.sw SW.wrongData)
  | some t =>
    let m ← readMeta k
    if t == m.type then return .sw SW.ok
    if k == .dec && t == .ed25519 then throw (.sw SW.wrongData)
    if k != .dec && t == .x25519 then throw (.sw SW.wrongData)
    setKey k fun p => { p with info := some { m with type := t, origin := 0 } }
    return .sw SW.ok

/-- PUT DATA of a user interaction flag (`openpgp.c:1145-1169`). The length is not checked for the authentication key, so
the byte may lie behind the data. -/
def putUif (i : In) (k : K) : M Reply := do
  if k != .aut && i.c.lc != 2 then throw (.sw SW.wrongLength)
  let m ← readMeta k
  if m.touch == 4 then throw (.sw SW.conditions)
  let d0 ← Cmd.mem (rd (i.c.data ++ i.tail) 0)
  if d0 > 2 then throw (.sw SW.wrongData)
  let t : Byte := if d0 == 0 then 0 else if d0 == 1 then 3 else 4
  setKey k fun p => { p with info := some { m with touch := t } }
  return .sw SW.ok

/-- PUT DATA of an object with a length between `lo` and `hi`. -/
def putAttrOf (c : Capdu) (lo hi : Nat) (w : M Unit) : M Reply := do
  if c.lc < lo || c.lc > hi then throw (.sw SW.wrongLength)
  w
  return .sw SW.ok

/-- PUT DATA of the resetting code (`openpgp.c:1133-1143`). -/
def putRc (x : Ext) (c : Capdu) : M Reply := do
  if (c.lc > 0 && c.lc < 8) || c.lc > 64 then throw (.sw SW.wrongLength)
  if c.lc == 0 then
    let rc ← onPin .rc Pin.clear
    if rc != .ok then throw ioErr
    return .sw SW.ok
  else
    let rc ← onPin .rc (Pin.update (pinCfg x .rc) c.data (UInt8.ofNat c.lc))
    if rc == .ioFail then throw ioErr
    if rc == .lengthInvalid then throw (.sw SW.wrongLength)
    return .sw SW.ok

/-- PUT DATA of a certificate (`openpgp.c:1000-1012`). -/
def putCert (c : Capdu) : M Reply := do
  if c.lc > 0x480 then throw (.sw SW.wrongLength)
  let r ← Cmd.get
  match certOf r.occ with
  | none => throw (.sw SW.refNotFound)
  | some k =>
    Cmd.wrOr (fun f => some (f.setCert k c.data)) ioErr
    Cmd.mod fun r => { r with occ := 0 }
    return .sw SW.ok

/-- PUT DATA of the cache time (`openpgp.c:1171-1175`). -/
def putCache (c : Capdu) : M Reply := do
  match c.data with
  | [b] =>
    Cmd.mod fun r => { r with cache := b }
    setData fun d => { d with cache := some b }
    return .sw SW.ok
  | _ => throw (.sw SW.wrongLength)

/-- PUT DATA of the PW1 status byte (`openpgp.c:1082-1086`). -/
def putPwStatus (c : Capdu) : M Reply := do
  match c.data with
  | [b] =>
    if b != 0 && b != 1 then throw (.sw SW.wrongData)
    setData fun d => { d with pwStatus := some b }
    return .sw SW.ok
  | _ => throw (.sw SW.wrongLength)

/-- `openpgp_put_data` (`openpgp.c:966-1181`). -/
def putData (x : Ext) (i : In) : M Reply := do
  needAdmin
  let c := i.c
  if tagOf c = 0x5B then putAttrOf c 0 39 (setData fun d => { d with name := some c.data })
  else if tagOf c = 0x5E then putAttrOf c 0 63 (setData fun d => { d with login := some c.data })
  else if tagOf c = 0x5F2D then putAttrOf c 0 8 (setData fun d => { d with lang := some c.data })
  else if tagOf c = 0x5F35 then putAttrOf c 0 1 (setData fun d => { d with sex := some c.data })
  else if tagOf c = 0x5F50 then
    putAttrOf c 0 255 (Cmd.wrOr (fun f => some { f with data := some { (f.data.getD Data.empty) with url := c.data } }) ioErr)
  else if tagOf c = 0x7F21 then putCert c
  else if tagOf c = 0xC1 then putAttr c .sig
  else if tagOf c = 0xC2 then putAttr c .dec
  else if tagOf c = 0xC3 then putAttr c .aut
  else if tagOf c = 0xC4 then putPwStatus c
  else if tagOf c = 0xC7 then putAttrOf c 20 20 (setKey .sig fun p => { p with fp := some c.data })
  else if tagOf c = 0xC8 then putAttrOf c 20 20 (setKey .dec fun p => { p with fp := some c.data })
  else if tagOf c = 0xC9 then putAttrOf c 20 20 (setKey .aut fun p => { p with fp := some c.data })
  else if tagOf c = 0xCA then putAttrOf c 20 20 (setData fun d => { d with ca1 := some c.data })
  else if tagOf c = 0xCB then putAttrOf c 20 20 (setData fun d => { d with ca2 := some c.data })
  else if tagOf c = 0xCC then putAttrOf c 20 20 (setData fun d => { d with ca3 := some c.data })
  else if tagOf c = 0xCE then putAttrOf c 4 4 (setKey .sig fun p => { p with date := some c.data })
  else if tagOf c = 0xCF then putAttrOf c 4 4 (setKey .dec fun p => { p with date := some c.data })
  else if tagOf c = 0xD0 then putAttrOf c 4 4 (setKey .aut fun p => { p with date := some c.data })
  else if tagOf c = 0xD3 then putRc x c
  else if tagOf c = 0xD6 then putUif i .sig
  else if tagOf c = 0xD7 then putUif i .dec
  else if tagOf c = 0xD8 then putUif i .aut
  else if tagOf c = 0x0102 then putCache c
  else throw (.sw SW.wrongP1P2)

/-- The template walk of `openpgp_import_key` (`openpgp.c:1199-1217`): the key reference and the offset of the rest. -/
def importHdr (mem : Bytes) : PE SW (K × Nat) := do
  if mem.length < 2 then throw SW.wrongLength
  let t ← liftM (rd mem 0)
  if t != 0x4D then throw SW.wrongData
  match ← liftM (Key.tlvLen mem 1 (mem.length - 1)) with
  | none => throw SW.wrongData
  | some (len, ls) =>
    if len < 2 then throw SW.wrongData
    if len + ls + 1 != mem.length then throw SW.wrongLength
    let ref ← liftM (rd mem (1 + ls))
    match keyOf ref with
    | none => throw SW.wrongData
    | some k =>
      let c ← liftM (rd mem (1 + ls + 1))
      if c != 0x00 && c != 0x03 then throw SW.wrongData
      return (k, 1 + ls + 1 + (c.toNat + 1))

/-- `openpgp_import_key` (`openpgp.c:1183-1236`). The length of the rest wraps when the template ends early. -/
def importKey (x : Ext) (i : In) : M Reply := do
  needAdmin
  let c := i.c
  if c.p1 != 0x3F || c.p2 != 0xFF then throw (.sw SW.wrongP1P2)
  let (k, p) ← Cmd.parse (importHdr c.data)
  let m ← readMeta k
  if !m.type.isEcc && !m.type.isRsa then throw (.sw SW.wrongLength)
  let len := if p ≤ c.lc then c.lc - p else 2 ^ 32 - (p - c.lc)
  match ← Cmd.mem (Key.parseOpenpgp (x.cr.imp m.type) (x.cr.kt m.type) zeroMat c.data p len).run with
  | .error .length => throw (.sw SW.wrongLength)
  | .error .data => throw (.sw SW.wrongData)
  | .error _ => throw (.sw SW.unable)
  | .ok key =>
    writeKey k key { m with origin := 2 }
    if k == .sig then resetCtr
    return .sw SW.ok

/-- `openpgp_select_data` (`openpgp.c:1238-1246`). -/
def selectData (c : Capdu) : M Reply := do
  Cmd.mod fun r => { r with occ := 0 }
  if c.p1 > 2 || c.p2 != 0x04 then throw (.sw SW.wrongP1P2)
  if c.lc != 6 then throw (.sw SW.wrongLength)
  if c.data != [0x60, 0x04, 0x5C, 0x02, 0x7F, 0x21] then throw (.sw SW.wrongData)
  Cmd.mod fun r => { r with occ := c.p1 }
  return .sw SW.ok

/-- `openpgp_get_next_data` (`openpgp.c:1248-1263`). -/
def getNext (c : Capdu) : M Reply := do
  if c.p1 != 0x7F || c.p2 != 0x21 then throw (.sw SW.wrongP1P2)
  if c.lc > 0 then throw (.sw SW.wrongLength)
  Cmd.mod fun r => { r with occ := r.occ + 1 }
  let r ← Cmd.get
  if r.occ == 1 then readCert .dec
  else if r.occ == 2 then readCert .aut
  else throw (.sw SW.refNotFound)

/-- `openpgp_terminate` (`openpgp.c:1265-1273`). -/
def terminate (c : Capdu) : M Reply := do
  if c.p1 != 0x00 || c.p2 != 0x00 then throw (.sw SW.wrongP1P2)
  match ← onPin .pw3 Pin.getRetries with
  | none => throw ioErr
  | some n =>
    if n > 0 then needAdmin
    setData fun d => { d with term := some 1 }
    return .sw SW.ok

/-- `openpgp_activate` (`openpgp.c:1275-1278`) with the check of `openpgp.c:1327`. -/
def activate (c : Capdu) (term : Byte) : M Reply := do
  if term == 0 then throw (.sw SW.conditions)
  if c.p1 != 0x00 || c.p2 != 0x00 then throw (.sw SW.wrongP1P2)
  install true
  return .sw SW.ok

/-- `openpgp_get_challenge` (`openpgp.c:1280-1286`). -/
def getChallenge (i : In) : M Reply := do
  if i.c.p1 != 0x00 || i.c.p2 != 0x00 then throw (.sw SW.wrongP1P2)
  if i.c.le > 1340 then throw (.sw SW.wrongLength)
  return .resp ((List.range i.c.le).map i.rnd) SW.ok

/-- The certificate state machine (`openpgp.c:1293-1313`); `none` is 6985. -/
def track (c : Capdu) (r : Ram) : Option Ram :=
  let cert := c.ins == 0xCA && c.p1 == 0x7F && c.p2 == 0x21
  if c.ins == 0xA5 then some { r with state := .selectData }
  else
    match r.state with
    | .normal => if c.ins == 0xCC then none else some (if cert then { r with state := .getCert } else r)
    | .selectData =>
      if c.ins == 0xCC then none
      else if cert then some { r with state := .getCert }
      else some { r with state := .normal,
                         occ := if c.ins == 0xDA && c.p1 == 0x7F && c.p2 == 0x21 then r.occ else 0 }
    | .getCert => some (if c.ins == 0xCC then r else { r with occ := 0, state := .normal })

/-- The `switch` of `openpgp_process_apdu` (`openpgp.c:1321-1382`). -/
def dispatch (x : Ext) (i : In) (term : Byte) : M Reply :=
  let c := i.c
  if c.ins == 0xA4 then select c
  else if c.ins == 0x44 then activate c term
  else if c.ins == 0xCA then getData i
  else if c.ins == 0xA5 then selectData c
  else if c.ins == 0xCC then getNext c
  else if c.ins == 0x20 then verify x i
  else if c.ins == 0x24 then changeRef x i
  else if c.ins == 0x2C then resetRetry x i
  else if c.ins == 0xDA then putData x i
  else if c.ins == 0xDB then importKey x i
  else if c.ins == 0x47 then generate x i
  else if c.ins == 0x2A then
    if c.p1 == 0x9E && c.p2 == 0x9A then signOrAuth x i true
    else if c.p1 == 0x80 && c.p2 == 0x86 then decipher x i
    else throw (.sw SW.wrongP1P2)
  else if c.ins == 0x88 then signOrAuth x i false
  else if c.ins == 0x84 then getChallenge i
  else if c.ins == 0xE6 then terminate c
  else throw (.sw SW.insNotSupported)

/-- `openpgp_process_apdu` (`openpgp.c:1288-1386`). -/
def process (x : Ext) (i : In) : M Reply := do
  let c := i.c
  if c.cla != 0x00 then throw (.sw SW.claNotSupported)
  let r ← Cmd.get
  match track c r with
  | none => throw (.sw SW.conditions)
  | some r =>
    Cmd.mod fun _ => r
    let t ← getAttr (·.term)
    if t == 1 && c.ins != 0x44 && c.ins != 0xA4 then throw (.sw SW.terminated)
    dispatch x i t

/-! ### Histories -/

/-- RAM at power-on: zero-initialised statics, `last_touch = UINT32_MAX`. -/
def Ram.init : Ram := ⟨false, false, 0, .normal, ⟨false⟩, ⟨false⟩, ⟨false⟩, 0, 0xFFFFFFFF⟩

/-- Everything that can happen to the applet. -/
inductive Op where
  | apdu (i : In)
  /-- another applet is selected (`/repo/src/apdu.c:14-38`) -/
  | deselect
  /-- `openpgp_install(1)` called by the admin applet -/
  | factory
  /-- power is lost and comes back; `applets_install` calls `openpgp_install(0)` -/
  | boot

/-- What is observed. -/
inductive Out where
  | reply (r : Reply)
  | none
  /-- power was cut during the operation -/
  | cut
  deriving DecidableEq, Repr

/-- `ram` is `none` while the device is off. -/
structure St where
  flash : Flash
  ram : Option Ram

/-- Run a command. -/
def exec (m : M Reply) (f : Flash) (r : Ram) (env : Env) : St × Out :=
  match runCmd m f r env with
  | (f, _, .cut) => (⟨f, none⟩, .cut)
  | (f, r, .done a) => (⟨f, some r⟩, .reply a)

/-- `openpgp_install` as a command. -/
def installOp (reset : Bool) : M Reply := do
  install reset
  return .sw SW.ok

def step (x : Ext) (s : St) (op : Op) (env : Env) : St × Out :=
  match op, s.ram with
  | .boot, _ => exec (installOp false) s.flash Ram.init env
  | _, none => (s, .none)
  | .apdu i, some r => exec (process x i) s.flash r env
  | .factory, some r => exec (installOp true) s.flash r env
  | .deselect, some r => (⟨s.flash, some (poweroff r)⟩, .none)

/-- Run a history; the log holds, newest first, every operation with the state before it and what was
observed. -/
def run (x : Ext) (s : St) (log : List (St × Op × Out)) : List (Op × Env) → St × List (St × Op × Out)
  | [] => (s, log)
  | (op, env) :: h => run x (step x s op env).1 ((s, op, (step x s op env).2) :: log) h

end Verif.Pgp
