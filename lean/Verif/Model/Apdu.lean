import Verif.Base.Mem
/-
Model of `/repo/src/apdu.c`: APDU decoding, command and response chaining, applet dispatch and
ownership of the shared buffer.
-/
namespace Verif.Apdu

/-- A decoded command (`CAPDU`, `/repo/include/apdu.h:7-15`); `data` are the `lc` bytes. -/
structure Capdu where
  cla : Byte
  ins : Byte
  p1 : Byte
  p2 : Byte
  data : Bytes
  le : Nat
  deriving DecidableEq, Repr

/-- `LC`. -/
def Capdu.lc (c : Capdu) : Nat := c.data.length

/-- `build_capdu` (`/repo/src/apdu.c:62-105`).  `cmd` are the `len` bytes at the pointer.  The
result is `none` when the C function returns -1.  Simplification: the destination `DATA` is the
same memory as `cmd` in all callers and always large enough; `LC` is not truncated to 16 bits (it
is at most 65535 by construction). -/
def buildCapdu (cmd : Bytes) : C (Option Capdu) := do
  let len := cmd.length
  if len < 4 then return none
  let cla ← rd cmd 0
  let ins ← rd cmd 1
  let p1 ← rd cmd 2
  let p2 ← rd cmd 3
  if len == 4 then return some ⟨cla, ins, p1, p2, [], 0⟩ -- case 1
  let b4 ← rd cmd 4
  let lc := b4.toNat
  if len == 5 then -- case 2S
    let le := lc
    return some ⟨cla, ins, p1, p2, [], if le == 0 then 0x100 else le⟩
  else if lc > 0 && len == 5 + lc then -- case 3S
    let data ← rdRange cmd 5 lc
    return some ⟨cla, ins, p1, p2, data, 0x100⟩
  else if lc > 0 && len == 6 + lc then -- case 4S
    let data ← rdRange cmd 5 lc
    let le := (← rd cmd (5 + lc)).toNat
    return some ⟨cla, ins, p1, p2, data, if le == 0 then 0x100 else le⟩
  else if len == 7 then -- case 2E
    if lc != 0 then return none
    let le := be16 (← rd cmd 5) (← rd cmd 6)
    return some ⟨cla, ins, p1, p2, [], if le == 0 then 0x10000 else le⟩
  else
    if lc != 0 || len < 7 then return none
    let lc := be16 (← rd cmd 5) (← rd cmd 6)
    if lc == 0 then return none
    if len == 7 + lc then -- case 3E
      let data ← rdRange cmd 7 lc
      return some ⟨cla, ins, p1, p2, data, 0x10000⟩
    else if len == 9 + lc then -- case 4E
      let data ← rdRange cmd 7 lc
      let le := be16 (← rd cmd (7 + lc)) (← rd cmd (8 + lc))
      return some ⟨cla, ins, p1, p2, data, if le == 0 then 0x10000 else le⟩
    else return none

/-- `APDU_BUFFER_SIZE` (`/repo/include/common.h`): 1340. -/
def bufSize : Nat := 1340

/-- `capdu_chaining`, `rapdu_chaining` and the `chaining_buffer` they share
(`/repo/src/apdu.c:53-60`). `buf` is `chaining_buffer`; the pending command is
`buf[0..lc)`, the pending response is `buf[0..rlen)`, of which `sent` bytes were sent. -/
structure Chain where
  buf : Bytes
  inChaining : Bool
  cla : Byte
  ins : Byte
  p1 : Byte
  p2 : Byte
  lc : Nat
  le : Nat
  rlen : Nat
  rsw : UInt16
  sent : Nat
  deriving DecidableEq, Repr

/-- Results of `apdu_input` (`/repo/include/apdu.h`). -/
inductive InRes where
  | notLast
  | last
  | overflow
  deriving DecidableEq, Repr

/-- `sh->cla & 0xEF`. -/
def unchain (cla : Byte) : Byte := cla &&& 0xEF
/-- `sh->cla & 0x10`. -/
def isChained (cla : Byte) : Bool := (cla &&& 0x10) != 0

/-- `apdu_input` (`/repo/src/apdu.c:107-132`). -/
def apduInput (ex : Chain) (sh : Capdu) : C (Chain × InRes) := do
  -- lines 108-119: (re)start unless the header continues the chain
  let ex :=
    if ex.inChaining && ex.cla == unchain sh.cla && ex.ins == sh.ins && ex.p1 == sh.p1
        && ex.p2 == sh.p2 then ex
    else { ex with cla := unchain sh.cla, ins := sh.ins, p1 := sh.p1, p2 := sh.p2, lc := 0 }
  let ex := { ex with inChaining := true }
  if ex.lc + sh.lc > bufSize then return (ex, .overflow)
  let buf ← wrRange ex.buf ex.lc sh.data
  let ex := { ex with buf := buf, lc := ex.lc + sh.lc }
  if isChained sh.cla then return (ex, .notLast)
  else return ({ ex with inChaining := false, le := sh.le }, .last)

/-- The command assembled in the chaining buffer (`&capdu_chaining.capdu`,
`/repo/src/apdu.c:179`). -/
def Chain.capdu (ex : Chain) : Capdu := ⟨ex.cla, ex.ins, ex.p1, ex.p2, ex.buf.take ex.lc, ex.le⟩

/-- A response (`RAPDU`). -/
structure Rapdu where
  data : Bytes
  sw : UInt16
  deriving DecidableEq, Repr

/-- `apdu_output` (`/repo/src/apdu.c:134-148`); `cap` is `sh->len` on entry. -/
def apduOutput (ex : Chain) (cap : Nat) : C (Chain × Rapdu) := do
  let toSend := ex.rlen - ex.sent
  let toSend := if toSend > cap then cap else toSend
  let d ← rdRange ex.buf ex.sent toSend
  let ex := { ex with sent := ex.sent + toSend }
  let sw : UInt16 :=
    if ex.sent < ex.rlen then
      if ex.rlen - ex.sent > 0xFF then 0x61FF
      else 0x6100 + UInt16.ofNat (ex.rlen - ex.sent)
    else ex.rsw
  return (ex, ⟨d, sw⟩)

/-- `enum APPLET` (`/repo/src/apdu.c:14-23`). -/
inductive Applet where
  | piv
  | fido
  | oath
  | admin
  | openpgp
  | ndef
  deriving DecidableEq, Repr

/-- AID table (`/repo/src/apdu.c:31-51`). -/
def Applet.aid : Applet → Bytes
  | .piv => [0xA0, 0x00, 0x00, 0x03, 0x08]
  | .fido => [0xA0, 0x00, 0x00, 0x06, 0x47, 0x2F, 0x00, 0x01]
  | .oath => [0xA0, 0x00, 0x00, 0x05, 0x27, 0x21, 0x01]
  | .admin => [0xF0, 0x00, 0x00, 0x00, 0x00]
  | .openpgp => [0xD2, 0x76, 0x00, 0x01, 0x24, 0x01]
  | .ndef => [0xD2, 0x76, 0x00, 0x00, 0x85, 0x01, 0x01]

/-- The order of the search loop (`/repo/src/apdu.c:189`). -/
def Applet.order : List Applet := [.piv, .fido, .oath, .admin, .openpgp, .ndef]

/-- `LC >= AID_Size[i] && memcmp(DATA, AID[i], AID_Size[i]) == 0` (`/repo/src/apdu.c:190`). -/
def Applet.matches (a : Applet) (data : Bytes) : Bool :=
  data.length ≥ a.aid.length && data.take a.aid.length == a.aid

/-- `enum PIV_STATE` (`/repo/src/apdu.c:25-29`). -/
inductive PivState where
  | getData
  | getDataResponse
  | other
  deriving DecidableEq, Repr

/-- The applets behind the dispatcher.  `σ` is the joint state of one applet; `handle` is its
`*_process_apdu`, returning the new state and the response, or undefined behaviour; `powerOff` is
`*_poweroff`.  A response of a chaining applet is written to the chaining buffer, so it must fit. -/
structure Applets (σ : Type) where
  handle : Applet → σ → Capdu → C (σ × Rapdu)
  powerOff : Applet → σ → σ

/-- The whole dispatcher state. -/
structure St (σ : Type) where
  chain : Chain
  current : Option Applet
  pivState : PivState
  /-- `cfg_is_ndef_enable()` (`/repo/applets/admin/admin.c:57`) -/
  ndefEnabled : Bool
  apps : Applet → σ

/-- `applets_poweroff` (`/repo/src/applets.c:20-26`): every applet except FIDO. -/
def powerOffAll {σ : Type} (A : Applets σ) (apps : Applet → σ) : Applet → σ := fun a =>
  match a with
  | .fido => apps .fido
  | a => A.powerOff a (apps a)

def setApp {σ : Type} (apps : Applet → σ) (a : Applet) (x : σ) : Applet → σ :=
  fun b => if b = a then x else apps b

/-- Does the applet answer through the chaining buffer (`/repo/src/apdu.c:211-252`)? -/
def Applet.chained : Applet → Bool
  | .openpgp | .piv | .fido => true
  | .oath | .admin | .ndef => false

def SW_NO_ERROR : UInt16 := 0x9000
def SW_FILE_NOT_FOUND : UInt16 := 0x6A82
def SW_CHECKING_ERROR : UInt16 := 0x6F00

def PIV_INS_GET_DATA : Byte := 0xCB
def PIV_INS_PUT_DATA : Byte := 0xDB

/-- `switch (current_applet)` (`/repo/src/apdu.c:211-256`). -/
def dispatch {σ : Type} (A : Applets σ) (s : St σ) (c : Capdu) : C (St σ × Rapdu) := do
  match s.current with
  | none => return (s, ⟨[], SW_FILE_NOT_FOUND⟩)
  | some a =>
    let (x, r) ← A.handle a (s.apps a) c
    let s := { s with apps := setApp s.apps a x }
    if a.chained then
      let buf ← wrRange s.chain.buf 0 r.data
      let (ch, out) ← apduOutput { s.chain with buf := buf, rlen := r.data.length, rsw := r.sw } c.le
      return ({ s with chain := ch }, out)
    else return (s, r)

/-- The offloading of PIV GET DATA / PUT DATA (`/repo/src/apdu.c:158-173`): the new `piv_state` and
whether the command goes straight to the PIV applet. -/
def pivOffload (st : PivState) (ins : Byte) : PivState × Bool :=
  let st' :=
    if ins == PIV_INS_GET_DATA then .getData
    else if (st == .getData || st == .getDataResponse) && ins == 0xC0 then .getDataResponse
    else .other
  (st', st' == .getData || st' == .getDataResponse || ins == PIV_INS_PUT_DATA)

/-- Selecting applet `a` (`/repo/src/apdu.c:197-199`): `piv_state` is reset when it is PIV, and all
applets are powered off if the applet changes. -/
def switchTo {σ : Type} (A : Applets σ) (s : St σ) (a : Applet) : St σ :=
  { s with
    pivState := if a = .piv then .other else s.pivState
    apps := if some a = s.current then s.apps else powerOffAll A s.apps
    current := some a }

/-- The execution of a completely received command (`/repo/src/apdu.c:179-256`): GET RESPONSE,
SELECT by AID, or dispatch to the current applet.  The `#ifdef TEST` commands are not modelled. -/
def execLast {σ : Type} (A : Applets σ) (s : St σ) : C (St σ × Rapdu) := do
  let s := { s with chain := { s.chain with le := min s.chain.le bufSize } }
  let c := s.chain.capdu
  if (c.cla == (0x80 : Byte) || c.cla == (0x00 : Byte)) && c.ins == (0xC0 : Byte) then
    let (ch, out) ← apduOutput s.chain c.le
    return ({ s with chain := ch }, out)
  let s := { s with chain := { s.chain with sent := 0 } }
  if c.cla == 0x00 && c.ins == 0xA4 && c.p1 == 0x04 && c.p2 == 0x00 then
    match Applet.order.find? (·.matches c.data) with
    | none => return (s, ⟨[], SW_FILE_NOT_FOUND⟩)
    | some a =>
      if a == .ndef && !s.ndefEnabled then return (s, ⟨[], SW_FILE_NOT_FOUND⟩)
      dispatch A (switchTo A s a) c
  else dispatch A s c

/-- `process_apdu` (`/repo/src/apdu.c:150-261`).  The keyboard eject has no modelled effect. -/
def process {σ : Type} (A : Applets σ) (s : St σ) (c : Capdu) : C (St σ × Rapdu) := do
  if c.cla == 0xFF && c.ins == 0xEE && c.p1 == 0xFF && c.p2 == 0xEE then
    return (s, ⟨[], SW_NO_ERROR⟩)
  let off := if s.current == some .piv then pivOffload s.pivState c.ins else (s.pivState, false)
  let s := { s with pivState := off.1 }
  if off.2 then
    let (x, r) ← A.handle .piv (s.apps .piv) { c with le := min c.le bufSize }
    return ({ s with apps := setApp s.apps .piv x }, r)
  let (ch, res) ← apduInput s.chain c
  let s := { s with chain := ch }
  match res with
  | .notLast => return (s, ⟨[], SW_NO_ERROR⟩)
  | .overflow => return (s, ⟨[], SW_CHECKING_ERROR⟩)
  | .last => execLast A s

/-- Zero-initialised static storage (`/repo/src/apdu.c:53-60`). -/
def Chain.init : Chain :=
  ⟨List.replicate bufSize 0, false, 0, 0, 0, 0, 0, 0, 0, 0, 0⟩

/-- State at power-up: no applet selected (`current_applet` is a zero-initialised static). -/
def St.init {σ : Type} (apps : Applet → σ) (ndef : Bool) : St σ :=
  ⟨Chain.init, none, .getData, ndef, apps⟩

/-! ### Buffer ownership -/

/-- `BUFFER_OWNER_NONE` (`/repo/include/apdu.h:85`). -/
def ownerNone : Nat := 1

/-- `device_atomic_compare_and_swap(&buffer_owner, expect, update)`: the platform's atomic
compare-and-swap on the owner variable. -/
def cas (cur expect update : Nat) : Nat := if cur = expect then update else cur

/-- The compare-and-swap of `acquire_apdu_buffer` (`/repo/src/apdu.c:264`). -/
def acquireCas (cur owner : Nat) : Nat := cas cur ownerNone owner
/-- The answer of `acquire_apdu_buffer` (`/repo/src/apdu.c:265`): reads the owner variable again,
possibly after other contexts ran; `true` is return value 0. -/
def acquireRead (cur owner : Nat) : Bool := cur == owner
/-- The compare-and-swap of `release_apdu_buffer` (`/repo/src/apdu.c:269`). -/
def releaseCas (cur owner : Nat) : Nat := cas cur owner ownerNone
/-- The answer of `release_apdu_buffer` (`/repo/src/apdu.c:270`). -/
def releaseRead (cur : Nat) : Bool := cur == ownerNone

end Verif.Apdu
