import Verif.Base.Parse
import Verif.Model.Apdu
/-
Model of the OATH applet (`/repo/applets/oath/oath.c`) and of the touch slots
(`/repo/applets/pass/pass.c`), which share the OATH file.
-/
namespace Verif.Oath
open Verif.Apdu (Capdu)

/-- `OATH_RECORD` (`/repo/include/oath.h:60-71`).  Simplifications: `name` and `secret` are only the
bytes covered by `name_len` and `key_len` (the padding behind them is never used), `key[0]`, `key[1]`
and the rest of the key are separate fields, and the packing into 141 bytes is not modelled (records
are read and written whole). A deleted record has `name_len == 0`. -/
structure Rec where
  name : Bytes
  alg : Byte
  digits : Byte
  secret : Bytes
  prop : Byte
  chal : Bytes
  deriving DecidableEq, Repr

/-- The file `oath` with its attributes `ATTR_KEY` and `ATTR_HANDLE` (`none` when missing). -/
structure OathFile where
  recs : List Rec
  key : Option Bytes
  handle : Option Bytes
  deriving DecidableEq, Repr

/-- `pass_slot_t` (`/repo/applets/pass/pass.c:12-26`). Simplification: the fields that are not used by
the slot type are dropped. -/
inductive Slot where
  | off
  | oath (offset : Nat) (name : Bytes) (enter : Byte)
  | static (pw : Bytes) (enter : Byte)
  deriving DecidableEq, Repr

/-- Flash: the files `oath` and `pass`. -/
structure Flash where
  oath : Option OathFile
  pass : Option (Slot × Slot)
  deriving DecidableEq, Repr

/-- `oath_remaining_type` (`/repo/applets/oath/oath.c:16-21`). -/
inductive Rem where
  | none
  | calcFull
  | calcTrunc
  | list
  deriving DecidableEq, Repr

/-- The static variables of both files (`oath.c:16-23,522-523`, `pass.c:28`).  `idx` is
`record_idx`; it is a natural number instead of a `uint8_t` (the file never has more than 100
records, `C15`). -/
structure Ram where
  validated : Bool
  rem : Rem
  idx : Nat
  authChal : Bytes
  cLen : Nat
  cBuf : Bytes
  slot0 : Slot
  slot1 : Slot
  deriving DecidableEq, Repr

/-- RAM at power-on (zero-initialised statics). -/
def Ram.init : Ram := ⟨false, .none, 0, List.replicate 8 0, 0, List.replicate 8 0, .off, .off⟩

abbrev M := Cmd Flash Ram Reply

/-- The external HMAC functions of canokey-crypto: `hmac alg key message` for algorithm 1, 2 and
anything else (SHA-1, SHA-256, SHA-512). -/
structure Ext where
  hmac : Byte → Bytes → Bytes → Bytes

/-- A command together with what the environment contributes: NFC or USB, whether the user touches
the key when asked, and the random bytes drawn. -/
structure In where
  c : Capdu
  nfc : Bool
  touch : Bool
  rnd : Bytes
  deriving DecidableEq, Repr

/-- `sizeof(OATH_RECORD)`. -/
def recSize : Nat := 141
/-- `MAX_RECORDS` (`oath.c:14`). -/
def maxRecords : Nat := 100

/-- `return -1` seen by the host (`oath.c:663`). -/
def ioErr : Reply := .sw SW.unable

/-- `get_file_size(OATH_FILE) / sizeof(OATH_RECORD)`. -/
def nRecords : M Nat := Cmd.rdOr (fun f => f.oath.map (·.recs.length)) ioErr

/-- `read_file(OATH_FILE, &record, i * sizeof(OATH_RECORD), sizeof(OATH_RECORD))`.  Simplification:
only called with `i` below the number of records. -/
def readRec (i : Nat) : M Rec := Cmd.rdOr (fun f => f.oath.bind (·.recs[i]?)) ioErr

/-- Writing record `i` (replacing it, or appending when `i` is the number of records). -/
def putRec (recs : List Rec) (i : Nat) (r : Rec) : List Rec :=
  if i < recs.length then recs.set i r else recs ++ [r]

/-- `write_file(OATH_FILE, &record, i * sizeof(OATH_RECORD), sizeof(OATH_RECORD), 0)`. -/
def updRec (i : Nat) (r : Rec) (f : Flash) : Option Flash :=
  f.oath.map fun o => { f with oath := some { o with recs := putRec o.recs i r } }

/-- `write_file(PASS_FILE, slots, 0, sizeof(slots), 1)`. -/
def updPass (r : Ram) (f : Flash) : Option Flash := some { f with pass := some (r.slot0, r.slot1) }

/-! ### Installation -/

/-- `oath_poweroff` (`oath.c:25-28`). -/
def poweroff (r : Ram) : Ram := { r with rem := .none, validated := false }

/-- `oath_install` (`oath.c:30-39`). -/
def install (reset : Bool) (rnd : Bytes) : M Reply := do
  Cmd.mod poweroff
  let size ← Cmd.rdF fun f => f.oath.map (·.recs.length)
  if !reset && size.isSome then return .sw SW.ok
  Cmd.wrOr (fun f => some { f with oath := some { (f.oath.getD ⟨[], none, none⟩) with recs := [] } }) ioErr
  Cmd.wrOr (fun f => f.oath.map fun o => { f with oath := some { o with key := some [] } }) ioErr
  Cmd.wrOr (fun f => f.oath.map fun o => { f with oath := some { o with handle := some rnd } }) ioErr
  return .sw SW.ok

/-- `pass_install` (`pass.c:30-39`). Simplification: a file of the wrong size is not modelled. -/
def passInstall (reset : Bool) : M Reply := do
  let file ← Cmd.rdF (·.pass)
  if reset || file.isNone then
    Cmd.mod fun r => { r with slot0 := .off, slot1 := .off }
    let r ← Cmd.get
    Cmd.wrOr (updPass r) ioErr
  else
    let s ← Cmd.rdOr (·.pass) ioErr
    Cmd.mod fun r => { r with slot0 := s.1, slot1 := s.2 }
  return .sw SW.ok

/-! ### SELECT, access code -/

/-- `oath_select` (`oath.c:41-67`). -/
def select (i : In) : M Reply := do
  if i.c.p2 != 0 then throw (.sw SW.wrongP1P2)
  let handle ← Cmd.rdOr (fun f => f.oath.bind (·.handle)) ioErr
  let hdr : Bytes := [0x79, 3, 0x06, 0x00, 0x00, 0x71, 8] ++ handle
  let key ← Cmd.rdOr (fun f => f.oath.bind (·.key)) (.resp hdr SW.unable)
  if key.isEmpty then
    Cmd.mod fun r => { r with validated := true }
    return .resp hdr SW.ok
  else
    Cmd.mod fun r => { r with authChal := i.rnd }
    return .resp (hdr ++ [0x74, 8] ++ i.rnd ++ [0x7B, 1, 0x01]) SW.ok

/-- The arguments of SET CODE (`oath.c:221-246`): `none` clears the code; otherwise key, challenge and
response. -/
def parseSetCode (d : Bytes) : PE SW (Option (Bytes × Bytes × Bytes)) := do
  let lc := d.length
  if lc == 0 then return none
  if lc < 2 then throw SW.wrongLength
  let t ← liftM (rd d 0)
  if t != 0x73 then throw SW.wrongData
  let kl ← liftM (rd d 1)
  if kl == 0 then return none
  if kl != 17 then throw SW.wrongData
  let off := 2 + kl.toNat
  if lc ≤ off + 2 then throw SW.wrongLength
  let t ← liftM (rd d off)
  if t != 0x74 then throw SW.wrongData
  let cl ← liftM (rd d (off + 1))
  let coff := off + 2
  let off := coff + cl.toNat
  if lc ≤ off + 2 then throw SW.wrongLength
  let t ← liftM (rd d off)
  if t != 0x75 then throw SW.wrongData
  let rl ← liftM (rd d (off + 1))
  if rl != 20 then throw SW.wrongData
  let roff := off + 2
  let off := roff + rl.toNat
  if lc != off then throw SW.wrongLength
  let key ← liftM (rdRange d 3 16)
  let chal ← liftM (rdRange d coff cl.toNat)
  let resp ← liftM (rdRange d roff 20)
  return some (key, chal, resp)

/-- `oath_set_code` (`oath.c:218-256`). -/
def setCode (x : Ext) (i : In) : M Reply := do
  if i.c.p1 != 0 || i.c.p2 != 0 then throw (.sw SW.wrongP1P2)
  match ← Cmd.parse (parseSetCode i.c.data) with
  | none =>
    Cmd.mod fun r => { r with validated := true }
    Cmd.wrOr (fun f => f.oath.map fun o => { f with oath := some { o with key := some [] } }) ioErr
    return .sw SW.ok
  | some (key, chal, resp) =>
    if x.hmac 1 key chal != resp then throw (.sw SW.dataInvalid)
    Cmd.mod fun r => { r with validated := false }
    Cmd.wrOr (fun f => f.oath.map fun o => { f with oath := some { o with key := some key } }) ioErr
    return .sw SW.ok

/-- The arguments of VALIDATE (`oath.c:261-274`): response and challenge. -/
def parseValidate (d : Bytes) : PE SW (Bytes × Bytes) := do
  let lc := d.length
  if lc ≤ 2 then throw SW.wrongLength
  let t ← liftM (rd d 0)
  if t != 0x75 then throw SW.wrongData
  let rl ← liftM (rd d 1)
  if rl != 20 then throw SW.wrongData
  let off := 2 + rl.toNat
  if lc ≤ off + 2 then throw SW.wrongLength
  let t ← liftM (rd d off)
  if t != 0x74 then throw SW.wrongData
  let cl ← liftM (rd d (off + 1))
  if lc != off + 2 + cl.toNat then throw SW.wrongLength
  let resp ← liftM (rdRange d 2 20)
  let chal ← liftM (rdRange d (off + 2) cl.toNat)
  return (resp, chal)

/-- `oath_validate` (`oath.c:258-295`). -/
def validate (x : Ext) (i : In) : M Reply := do
  if i.c.p1 != 0 || i.c.p2 != 0 then throw (.sw SW.wrongP1P2)
  let (resp, chal) ← Cmd.parse (parseValidate i.c.data)
  let key ← Cmd.rdOr (fun f => f.oath.bind (·.key)) ioErr
  if key.isEmpty then throw (.sw SW.dataInvalid)
  let r ← Cmd.get
  let good := x.hmac 1 key r.authChal == resp
  Cmd.mod fun r => { r with validated := good }
  if !good then throw (.sw SW.wrongData)
  return .resp ([0x75, 20] ++ x.hmac 1 key chal) SW.ok

/-! ### PUT, DELETE, RENAME -/

/-- The optional property of PUT (`oath.c:97-103`): value and next offset. -/
def parseProp (d : Bytes) (off : Nat) : PE SW (Byte × Nat) := do
  if d.length > off then
    let t ← liftM (rd d off)
    if t == 0x78 then
      if d.length ≤ off + 1 then throw SW.wrongLength
      let p ← liftM (rd d (off + 1))
      if p &&& 0xFC != 0 then throw SW.wrongData
      return (p, off + 2)
    else return (0, off)
  else return (0, off)

/-- The optional HOTP counter of PUT (`oath.c:105-114`): challenge field and next offset. -/
def parseCounter (d : Bytes) (alg : Byte) (off : Nat) : PE SW (Bytes × Nat) := do
  if off < d.length then
    let t ← liftM (rd d off)
    if t == 0x7A then
      if d.length ≤ off + 1 then throw SW.wrongLength
      let l ← liftM (rd d (off + 1))
      if l != 4 then throw SW.wrongData
      if alg &&& 0xF0 != 0x10 then throw SW.wrongData
      if d.length < off + 2 + 4 then throw SW.wrongLength
      let c ← liftM (rdRange d (off + 2) 4)
      return ([0, 0, 0, 0] ++ c, off + 6)
    else return ([0, 0, 0, 0, 0, 0, 0, 0], off)
  else return ([0, 0, 0, 0, 0, 0, 0, 0], off)

/-- The arguments of PUT (`oath.c:72-116`): the record to be stored. -/
def parsePut (d : Bytes) : PE SW Rec := do
  let lc := d.length
  if lc < 2 then throw SW.wrongLength
  let t ← liftM (rd d 0)
  if t != 0x71 then throw SW.wrongData
  let nl ← liftM (rd d 1)
  if nl > 64 || nl == 0 then throw SW.wrongData
  let off := 2 + nl.toNat
  if lc ≤ off + 4 then throw SW.wrongLength
  let t ← liftM (rd d off)
  if t != 0x73 then throw SW.wrongData
  let kl ← liftM (rd d (off + 1))
  let koff := off + 2
  if kl > 66 || kl ≤ 2 then throw SW.wrongData
  let alg ← liftM (rd d koff)
  if alg &&& 0xF0 != 0x10 && alg &&& 0xF0 != 0x20 then throw SW.wrongData
  if alg &&& 0x0F != 1 && alg &&& 0x0F != 2 && alg &&& 0x0F != 3 then throw SW.wrongData
  let digits ← liftM (rd d (koff + 1))
  if digits < 4 || digits > 8 then throw SW.wrongData
  let (prop, off) ← parseProp d (koff + kl.toNat)
  let (chal, off) ← parseCounter d alg off
  if lc != off then throw SW.wrongLength
  let name ← liftM (rdRange d 2 nl.toNat)
  let secret ← liftM (rdRange d (koff + 2) (kl.toNat - 2))
  return ⟨name, alg, digits, secret, prop, chal⟩

/-- The search loop of PUT (`oath.c:123-133`) from record `i` on, `k` records left: the slot to use,
`n` when there is no empty one so far. -/
def putScan (name : Bytes) (n i : Nat) (unocc : Nat) : Nat → M Nat
  | 0 => pure unocc
  | k + 1 => do
    let r ← readRec i
    if r.name == name then throw (.sw SW.conditions)
    putScan name n (i + 1) (if r.name.isEmpty && unocc == n then i else unocc) k

/-- `oath_put` (`oath.c:69-146`). -/
def put (i : In) : M Reply := do
  if i.c.p1 != 0 || i.c.p2 != 0 then throw (.sw SW.wrongP1P2)
  let r ← Cmd.parse (parsePut i.c.data)
  let n ← nRecords
  let u ← putScan r.name n 0 n n
  if u == n && u ≥ maxRecords then throw (.sw SW.noSpace)
  Cmd.wrOr (updRec u r) ioErr
  return .sw SW.ok

/-- The name argument of DELETE (`oath.c:151-158`) and SET DEFAULT (`oath.c:415-422`). -/
def parseName (d : Bytes) : PE SW Bytes := do
  let lc := d.length
  if lc < 2 then throw SW.wrongLength
  let t ← liftM (rd d 0)
  if t != 0x71 then throw SW.wrongData
  let nl ← liftM (rd d 1)
  if nl > 64 || nl == 0 then throw SW.wrongData
  if lc < 2 + nl.toNat then throw SW.wrongLength
  liftM (rdRange d 2 nl.toNat)

/-- The search loop of DELETE, CALCULATE and SET DEFAULT (`oath.c:165-167,460-464,431-435`). -/
def find (name : Bytes) (i : Nat) : Nat → M (Option (Nat × Rec))
  | 0 => pure none
  | k + 1 => do
    let r ← readRec i
    if r.name == name then return some (i, r)
    find name (i + 1) k

/-- `slots[k].type == PASS_SLOT_OATH && slots[k].oath_offset == file_offset` (`pass.c:137,141`). -/
def Slot.hits (offset : Nat) : Slot → Bool
  | .oath o _ _ => o == offset
  | _ => false

/-- `pass_delete_oath` (`pass.c:136-146`). -/
def passDeleteOath (offset : Nat) : M Unit := do
  let r ← Cmd.get
  if r.slot0.hits offset then
    Cmd.mod fun r => { r with slot0 := .off }
    let r ← Cmd.get
    Cmd.wrOr (updPass r) ioErr
  else if r.slot1.hits offset then
    Cmd.mod fun r => { r with slot1 := .off }
    let r ← Cmd.get
    Cmd.wrOr (updPass r) ioErr
  else pure ()

/-- `oath_delete` (`oath.c:148-174`). -/
def delete (i : In) : M Reply := do
  if i.c.p1 != 0 || i.c.p2 != 0 then throw (.sw SW.wrongP1P2)
  let name ← Cmd.parse (parseName i.c.data)
  let n ← nRecords
  match ← find name 0 n with
  | none => throw (.sw SW.dataInvalid)
  | some (j, r) =>
    passDeleteOath (j * recSize)
    Cmd.wrOr (updRec j { r with name := [] }) ioErr
    return .sw SW.ok

/-- The arguments of RENAME (`oath.c:179-192`): old and new name. -/
def parseRename (d : Bytes) : PE SW (Bytes × Bytes) := do
  let lc := d.length
  if lc ≤ 2 then throw SW.wrongLength
  let t ← liftM (rd d 0)
  if t != 0x71 then throw SW.wrongData
  let ol ← liftM (rd d 1)
  if ol > 64 || ol == 0 then throw SW.wrongData
  let off := 2 + ol.toNat
  if lc ≤ off + 2 then throw SW.wrongLength
  let t ← liftM (rd d off)
  if t != 0x71 then throw SW.wrongData
  let nl ← liftM (rd d (off + 1))
  if nl > 64 || nl == 0 then throw SW.wrongData
  if lc < off + 2 + nl.toNat then throw SW.wrongLength
  let old ← liftM (rdRange d 2 ol.toNat)
  let new ← liftM (rdRange d (off + 2) nl.toNat)
  return (old, new)

/-- The search loop of RENAME (`oath.c:200-208`): the index of the old name, `n` if there is none. -/
def renameScan (old new : Bytes) (n i idxOld : Nat) : Nat → M Nat
  | 0 => pure idxOld
  | k + 1 => do
    let r ← readRec i
    if r.name == new then throw (.sw SW.conditions)
    renameScan old new n (i + 1) (if idxOld == n && r.name == old then i else idxOld) k

/-- `oath_rename` (`oath.c:176-216`). -/
def rename (i : In) : M Reply := do
  if i.c.p1 != 0 || i.c.p2 != 0 then throw (.sw SW.wrongP1P2)
  let (old, new) ← Cmd.parse (parseRename i.c.data)
  let n ← nRecords
  let j ← renameScan old new n 0 n n
  if j == n then throw (.sw SW.dataInvalid)
  let r ← readRec j
  Cmd.wrOr (updRec j { r with name := new }) ioErr
  return .sw SW.ok

/-! ### LIST -/

/-- The loop of LIST (`oath.c:307-322`): the output and whether it stopped for lack of space. `k` is
at least the number of records left. -/
def listLoop (n le : Nat) : Nat → Bytes → M (Bytes × Bool)
  | 0, out => pure (out, false)
  | k + 1, out => do
    let s ← Cmd.get
    if s.idx < n then
      let r ← readRec s.idx
      if out.length + 3 + r.name.length > le then return (out, true)
      Cmd.mod fun s => { s with idx := s.idx + 1 }
      if r.name.isEmpty then listLoop n le k out
      else listLoop n le k (out ++ ([0x72, UInt8.ofNat (r.name.length + 1), r.alg] ++ r.name))
    else pure (out, false)

/-- `oath_list` (`oath.c:297-329`). -/
def list (i : In) : M Reply := do
  if i.c.p1 != 0 || i.c.p2 != 0 then throw (.sw SW.wrongP1P2)
  Cmd.mod fun s => { s with rem := .list }
  let n ← nRecords
  let (out, more) ← listLoop n i.c.le n []
  let s ← Cmd.get
  if s.idx ≥ n then Cmd.mod fun s => { s with rem := .none }
  return .resp out (if more then SW.more else SW.ok)

/-! ### CALCULATE -/

/-- `memcmp(a, b, n) > 0` on buffers of the same length. -/
def memcmpGt : Bytes → Bytes → Bool
  | a :: as, b :: bs => if a == b then memcmpGt as bs else a > b
  | _, _ => false

/-- The write of `oath_update_challenge_field` (`oath.c:331-334`). -/
def updChal (i : Nat) (chal : Bytes) (f : Flash) : Option Flash :=
  f.oath.map fun o => { f with oath := some { o with recs := o.recs.modify i fun r => { r with chal := chal } } }

/-- `oath_enforce_increasing` (`oath.c:336-346`): `false` for a negative result.  The result of the
write is ignored, as in the code. -/
def enforceIncreasing (i : Nat) (r : Rec) (chal : Bytes) : M Bool := do
  if r.prop &&& 0x01 != 0 then
    if chal.length != 8 then return false
    if memcmpGt r.chal chal then return false
    let _ ← Cmd.wrF (updChal i chal)
    return true
  else return true

/-- The loop of `oath_increase_counter` (`oath.c:348-355`) on the reversed bytes; the flag is set when
the carry runs out of the field. -/
def incRev : Bytes → Bytes × Bool
  | [] => ([], true)
  | b :: r => if b + 1 != 0 then ((b + 1) :: r, false) else let (r', c) := incRev r; (0 :: r', c)

/-- `oath_increase_counter` (`oath.c:348-355`). -/
def increaseCounter (chal : Bytes) : Option Bytes :=
  match incRev chal.reverse with
  | (_, true) => none
  | (r, false) => some r.reverse

/-- `oath_digest` (`oath.c:357-377`) without truncation. -/
def digest (x : Ext) (r : Rec) (chal : Bytes) : Bytes := x.hmac (r.alg &&& 0x0F) r.secret chal

/-- The truncation of `oath_digest` (`oath.c:374-376`). -/
def truncate (dig : Bytes) : C Bytes := do
  let l ← rd dig (dig.length - 1)
  let d ← rdRange dig (l &&& 0x0F).toNat 4
  match d with
  | b :: rest => return (b &&& 0x7F) :: rest
  | [] => throw .oob

/-- The name argument of CALCULATE (`oath.c:445-451`): name and next offset. -/
def parseCalcName (d : Bytes) : PE SW (Bytes × Nat) := do
  let lc := d.length
  if lc ≤ 2 then throw SW.wrongLength
  let t ← liftM (rd d 0)
  if t != 0x71 then throw SW.wrongData
  let nl ← liftM (rd d 1)
  if nl > 64 || nl == 0 then throw SW.wrongData
  if lc < 2 + nl.toNat then throw SW.wrongLength
  let name ← liftM (rdRange d 2 nl.toNat)
  return (name, 2 + nl.toNat)

/-- The challenge argument of CALCULATE (`oath.c:482-491`). -/
def parseChal (d : Bytes) (off : Nat) : PE SW Bytes := do
  let lc := d.length
  if off + 1 ≥ lc then throw SW.wrongLength
  let t ← liftM (rd d off)
  if t != 0x74 then throw SW.wrongData
  let cl ← liftM (rd d (off + 1))
  if cl > 8 || cl == 0 then throw SW.wrongData
  if off + 2 + cl.toNat > lc then throw SW.wrongLength
  liftM (rdRange d (off + 2) cl.toNat)

/-- The moving factor of CALCULATE (`oath.c:479-503`): for TOTP the challenge sent, for HOTP the
incremented counter, which is written back first. -/
def factor (i : In) (off j : Nat) (r : Rec) : M Bytes := do
  if r.alg &&& 0xF0 == 0x20 then
    let chal ← Cmd.parse (parseChal i.c.data off)
    if !(← enforceIncreasing j r chal) then throw (.sw SW.security)
    return chal
  else if r.alg &&& 0xF0 == 0x10 then
    match increaseCounter r.chal with
    | none => throw (.sw SW.conditions)
    | some c =>
      let _ ← Cmd.wrF (updChal j c)
      return c
  else throw ioErr

/-- The answer of CALCULATE (`oath.c:505-516`). -/
def answer (x : Ext) (trunc : Bool) (r : Rec) (chal : Bytes) : C Bytes := do
  if trunc then
    let t ← truncate (digest x r chal)
    return [0x76, 5, r.digits] ++ t
  else
    let dig := digest x r chal
    return [0x75, UInt8.ofNat (1 + dig.length), r.digits] ++ dig

/-- `oath_calculate` (`oath.c:442-519`). -/
def calculate (x : Ext) (i : In) : M Reply := do
  if i.c.p1 != 0 || (i.c.p2 != 0 && i.c.p2 != 1) then throw (.sw SW.wrongP1P2)
  let (name, off) ← Cmd.parse (parseCalcName i.c.data)
  let n ← nRecords
  match ← find name 0 n with
  | none => throw (.sw SW.dataInvalid)
  | some (j, r) =>
    if r.prop &&& 0x02 != 0 && !i.nfc && !i.touch then throw (.sw SW.security)
    let chal ← factor i off j r
    let d ← Cmd.mem (answer x (i.c.p2 != 0) r chal)
    return .resp d SW.ok

/-- What CALCULATE ALL outputs for one record (`oath.c:562-596`), with `stop` set on
`EXCEPT(SW_SECURITY_STATUS_NOT_SATISFIED)`. -/
def calcOne (x : Ext) (trunc : Bool) (j : Nat) (r : Rec) (chal : Bytes) : M Bytes := do
  let hdr : Bytes := [0x71, UInt8.ofNat r.name.length] ++ r.name
  if r.alg &&& 0xF0 == 0x10 then return hdr ++ [0x77, 1, r.digits]
  else if r.prop &&& 0x02 != 0 then return hdr ++ [0x7C, 1, r.digits]
  else
    if !(← enforceIncreasing j r chal) then throw (.sw SW.security)
    let d ← Cmd.mem (answer x trunc r chal)
    return hdr ++ d

/-- The loop of CALCULATE ALL (`oath.c:550-597`). -/
def calcLoop (x : Ext) (n le : Nat) : Nat → Bytes → M (Bytes × Bool)
  | 0, out => pure (out, false)
  | k + 1, out => do
    let s ← Cmd.get
    if s.idx < n then
      let r ← readRec s.idx
      if 2 + r.name.length + 2 + 1 + (if s.rem == .calcTrunc then 4 else 64) + out.length > le then
        return (out, true)
      Cmd.mod fun s => { s with idx := s.idx + 1 }
      if r.name.isEmpty then calcLoop x n le k out
      else
        let d ← calcOne x (s.rem == .calcTrunc) s.idx r (s.cBuf.take s.cLen)
        calcLoop x n le k (out ++ d)
    else pure (out, false)

/-- The challenge of CALCULATE ALL (`oath.c:530-545`), stored in statics. -/
def calcStart (i : In) : M Unit := do
  let d := i.c.data
  if 1 ≥ d.length then throw (.sw SW.wrongLength)
  let t ← Cmd.mem (rd d 0)
  if t != 0x74 then throw (.sw SW.wrongData)
  let cl ← Cmd.mem (rd d 1)
  if cl > 8 || cl == 0 then
    Cmd.mod fun s => { s with cLen := 0 }
    throw (.sw SW.wrongData)
  Cmd.mod fun s => { s with cLen := cl.toNat }
  if 2 + cl.toNat > d.length then throw (.sw SW.wrongLength)
  let c ← Cmd.mem (rdRange d 2 cl.toNat)
  Cmd.mod fun s => { s with cBuf := c ++ s.cBuf.drop cl.toNat,
                            rem := if i.c.p2 != 0 then .calcTrunc else .calcFull }

/-- `oath_calculate_all` (`oath.c:521-604`). -/
def calculateAll (x : Ext) (i : In) : M Reply := do
  if i.c.p2 != 0 && i.c.p2 != 1 then throw (.sw SW.wrongP1P2)
  let n ← nRecords
  let s ← Cmd.get
  if s.idx == 0 then calcStart i
  let (out, more) ← calcLoop x n i.c.le n []
  let s ← Cmd.get
  if s.idx ≥ n then Cmd.mod fun s => { s with rem := .none }
  return .resp out (if more then SW.more else SW.ok)

/-- `oath_send_remaining` (`oath.c:606-610`). -/
def sendRemaining (x : Ext) (i : In) : M Reply := do
  let s ← Cmd.get
  match s.rem with
  | .list => list i
  | .calcFull | .calcTrunc => calculateAll x i
  | .none => throw (.sw SW.conditions)

/-- `oath_set_default` (`oath.c:411-440`) with `pass_update_oath` (`pass.c:125-134`). -/
def setDefault (i : In) : M Reply := do
  if i.c.p1 != 1 && i.c.p1 != 2 then throw (.sw SW.wrongP1P2)
  if i.c.p2 != 0 && i.c.p2 != 1 then throw (.sw SW.wrongP1P2)
  let name ← Cmd.parse (parseName i.c.data)
  let n ← nRecords
  match ← find name 0 n with
  | none => throw (.sw SW.dataInvalid)
  | some (j, r) =>
    if r.alg &&& 0xF0 == 0x20 then throw (.sw SW.conditions)
    let s : Slot := .oath (j * recSize) r.name i.c.p2
    Cmd.mod fun m => if i.c.p1 == 1 then { m with slot0 := s } else { m with slot1 := s }
    let m ← Cmd.get
    Cmd.wrOr (updPass m) ioErr
    return .sw SW.ok

/-- `oath_process_apdu` (`oath.c:613-665`). -/
def process (x : Ext) (i : In) : M Reply := do
  let s ← Cmd.get
  if !s.validated && i.c.ins != 0xA4 && i.c.ins != 0xA3 then throw (.sw SW.security)
  if i.c.ins == 0x01 then put i
  else if i.c.ins == 0x02 then delete i
  else if i.c.ins == 0x03 then setCode x i
  else if i.c.ins == 0x05 then rename i
  else if i.c.ins == 0xA1 then do
    Cmd.mod fun s => { s with idx := 0 }
    list i
  else if i.c.ins == 0xA2 then calculate x i
  else if i.c.ins == 0xA3 then validate x i
  else if i.c.ins == 0xA4 then
    if i.c.p1 == 0x04 then select i
    else if i.c.p1 == 0x00 then do
      if !s.validated then throw (.sw SW.security)
      Cmd.mod fun s => { s with idx := 0 }
      calculateAll x i
    else throw (.sw SW.wrongP1P2)
  else if i.c.ins == 0xA5 then sendRemaining x i
  else if i.c.ins == 0x55 then setDefault i
  else throw (.sw SW.insNotSupported)

/-! ### Touch slots -/

/-- `oath_calculate_by_offset` (`oath.c:379-409`): the truncated value and the number of digits;
`none` for a negative result. -/
def calculateByOffset (x : Ext) (offset : Nat) : M (Option (Bytes × Byte)) := do
  if offset % recSize != 0 then return none
  match ← Cmd.rdF (fun f => f.oath.map (·.recs.length)) with
  | none => return none
  | some n =>
    if offset ≥ n * recSize then return none
    match ← Cmd.rdF (fun f => f.oath.bind (·.recs[offset / recSize]?)) with
    | none => return none
    | some r =>
      if r.name.isEmpty then return none
      else if r.alg &&& 0xF0 == 0x20 then return none
      else if r.alg &&& 0xF0 == 0x10 then
        match increaseCounter r.chal with
        | none => return none
        | some c =>
          let _ ← Cmd.wrF (updChal (offset / recSize) c)
          let t ← Cmd.mem (truncate (digest x r c))
          return some (t, r.digits)
      else return none

/-- Big-endian value of a byte string (`htobe32` of the four bytes, `pass.c:154`). -/
def beVal (b : Bytes) : Nat := b.foldl (fun a x => a * 256 + x.toNat) 0

/-- The digit loop of `oath_process_offset` (`pass.c:155-158`): the last `n` decimal digits. -/
def digitsOf : Nat → Nat → Bytes
  | 0, _ => []
  | n + 1, v => digitsOf n (v / 10) ++ [UInt8.ofNat (v % 10 + 0x30)]

/-- `pass_handle_touch` (`pass.c:164-192`): the characters typed, `none` for a negative result. -/
def handleTouch (x : Ext) (long : Bool) : M (Option Bytes) := do
  let s ← Cmd.get
  match (if long then s.slot1 else s.slot0) with
  | .off => return some []
  | .oath off _ enter =>
    match ← calculateByOffset x off with
    | none => return none
    | some (t, d) =>
      let out := digitsOf d.toNat (beVal t)
      return some (if enter != 0 then out ++ [0x0D] else out)
  | .static pw enter => return some (if enter != 0 then pw ++ [0x0D] else pw)

/-- `dump_slot` (`pass.c:46-78`). -/
def dumpSlot : Slot → Bytes
  | .off => [0]
  | .static _ enter => [2, enter]
  | .oath _ name enter => [1, UInt8.ofNat name.length] ++ name ++ [enter]

/-- `pass_read_config` (`pass.c:80-88`). -/
def passRead : M Reply := do
  let s ← Cmd.get
  return .resp (dumpSlot s.slot0 ++ dumpSlot s.slot1) SW.ok

/-- The data of `pass_write_config` (`pass.c:98-119`). -/
def parsePass (d : Bytes) : PE SW Slot := do
  if d.length < 1 then throw SW.wrongLength
  let t ← liftM (rd d 0)
  if t == 0 then
    if d.length != 1 then throw SW.wrongLength
    return .off
  else if t == 2 then
    if d.length < 3 then throw SW.wrongLength
    let l ← liftM (rd d 1)
    if l > 32 then throw SW.wrongLength
    if d.length != 3 + l.toNat then throw SW.wrongLength
    let pw ← liftM (rdRange d 2 l.toNat)
    let e ← liftM (rd d (2 + l.toNat))
    return .static pw e
  else throw SW.wrongData

/-- `pass_write_config` (`pass.c:96-123`). -/
def passWrite (c : Capdu) : M Reply := do
  if c.p1 != 1 && c.p1 != 2 then throw (.sw SW.wrongP1P2)
  let s ← Cmd.parse (parsePass c.data)
  Cmd.mod fun m => if c.p1 == 1 then { m with slot0 := s } else { m with slot1 := s }
  let m ← Cmd.get
  Cmd.wrOr (updPass m) ioErr
  return .sw SW.ok

/-! ### Histories -/

/-- Everything that can happen to the two applets. `install`, `passRead`, `passWrite` and resets are
reached through the boot code and the admin applet. -/
inductive Op where
  | apdu (i : In)
  | touch (long : Bool)
  | passRead
  | passWrite (c : Capdu)
  | install (reset : Bool) (rnd : Bytes)
  | passInstall (reset : Bool)
  | powerOff
  /-- loss of power between commands -/
  | boot
  deriving DecidableEq, Repr

/-- What is observed. -/
inductive Out where
  | reply (r : Reply)
  | typed (b : Option Bytes)
  | none
  | cut
  deriving DecidableEq, Repr

structure St where
  flash : Flash
  ram : Ram
  deriving DecidableEq, Repr

/-- Run a command; a power cut clears RAM. -/
def exec (m : M Reply) (s : St) (env : Env) : St × Out :=
  match runCmd m s.flash s.ram env with
  | (f, _, .cut) => (⟨f, Ram.init⟩, .cut)
  | (f, r, .done a) => (⟨f, r⟩, .reply a)

/-- Run a touch. -/
def execTouch (m : M (Option Bytes)) (s : St) (env : Env) : St × Out :=
  match m.run ⟨s.flash, s.ram, env⟩ with
  | (Option.none, w) => (⟨w.flash, Ram.init⟩, .cut)
  | (some (.error e), w) => (⟨w.flash, w.ram⟩, .reply e)
  | (some (.ok a), w) => (⟨w.flash, w.ram⟩, .typed a)

def step (x : Ext) (s : St) (op : Op) (env : Env) : St × Out :=
  match op with
  | .apdu i => exec (process x i) s env
  | .touch long => execTouch (handleTouch x long) s env
  | .passRead => exec passRead s env
  | .passWrite c => exec (passWrite c) s env
  | .install reset rnd => exec (install reset rnd) s env
  | .passInstall reset => exec (passInstall reset) s env
  | .powerOff => (⟨s.flash, poweroff s.ram⟩, .none)
  | .boot => (⟨s.flash, Ram.init⟩, .none)

/-- Run a history of operations, each with its fault schedule. -/
def run (x : Ext) (s : St) : List (Op × Env) → St × List Out
  | [] => (s, [])
  | (op, env) :: h =>
    let (s', o) := step x s op env
    let (s'', os) := run x s' h
    (s'', o :: os)

end Verif.Oath
