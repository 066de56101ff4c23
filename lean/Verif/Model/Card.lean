import Verif.Base.Shift
import Verif.Model.Apdu
import Verif.Model.Admin
import Verif.Model.Pgp
import Verif.Model.Piv
import Verif.Model.Oath
import Verif.Model.CtapCmd
/-
Model of the whole card: `/repo/src/apdu.c` (dispatch), `/repo/src/applets.c` (installation and power-off of all
applets) and the calls of the admin applet into the other applets, around the models of the applets.

The applets share one flash memory, one RAM and one fault schedule.  The files and static variables of different
applets are different objects in the C code; here they are different fields.
-/
namespace Verif.Card
open Apdu (Capdu Rapdu Applet Chain PivState)

/-! ### State -/

/-- The files of the applets besides admin and NDEF. -/
structure Fl where
  pgp : Pgp.Flash
  piv : Piv.Flash
  oath : Oath.Flash
  ctap : Ctap.Flash

/-- What the random number generator and the surroundings will give to `piv_install`, `oath_install` and
`ctap_install` if they are called during the current operation. -/
structure Rnd where
  piv : Nat → Byte
  oath : Bytes
  ctap : Ctap.In

/-- The static variables of the applets besides admin and NDEF. -/
structure Rm where
  pgp : Pgp.Ram
  piv : Piv.Ram
  oath : Oath.Ram
  ctap : Ctap.Ram
  rnd : Rnd

abbrev Flash := Admin.Flash Fl
abbrev Ram := Admin.Ram Rm

/-- The static variables of `apdu.c` (`/repo/src/apdu.c:53-60,151-153`). -/
structure Disp where
  chain : Chain
  current : Option Applet
  pivState : PivState

/-- At power-up. -/
def Disp.init : Disp := ⟨Chain.init, none, .getData⟩

/-- Parameters: those of the applets, and the encoding of CTAP messages, which is modelled separately. -/
structure Ext where
  neq : Int
  pgp : Pgp.Ext
  piv : Piv.Ext
  oath : Oath.Ext
  ctap : Ctap.Ext
  /-- the decoding of a CTAP2 request (`Verif/Model/CtapParse.lean` for the part behind tinycbor) -/
  decode : Ctap.Ram → Bytes → Ctap.Req
  /-- the encoding of a response (`Verif/Model/CtapEnc.lean`) -/
  encode : Ctap.Out → Bytes
  /-- `ctap_sm2_attr` in its stored form (12 bytes) -/
  sm2 : Bytes → Ctap.Sm2
  sm2Bytes : Ctap.Sm2 → Bytes

/-! ### Parts -/

def pgpF : Part Fl Pgp.Flash := ⟨(·.pgp), fun p f => { f with pgp := p }⟩
def pgpR : Part Rm Pgp.Ram := ⟨(·.pgp), fun p f => { f with pgp := p }⟩
def pivF : Part Fl Piv.Flash := ⟨(·.piv), fun p f => { f with piv := p }⟩
def pivR : Part Rm Piv.Ram := ⟨(·.piv), fun p f => { f with piv := p }⟩
def oathF : Part Fl Oath.Flash := ⟨(·.oath), fun p f => { f with oath := p }⟩
def oathR : Part Rm Oath.Ram := ⟨(·.oath), fun p f => { f with oath := p }⟩
def ctapF : Part Fl Ctap.Flash := ⟨(·.ctap), fun p f => { f with ctap := p }⟩
def ctapR : Part Rm Ctap.Ram := ⟨(·.ctap), fun p f => { f with ctap := p }⟩

/-- Whether an installation returns a non-negative number. -/
def succeeds {φ ρ ε α : Type} (m : Cmd φ ρ ε α) : FsM φ ρ Bool := fun w =>
  match m.run w with
  | (some (.ok _), w') => (some true, w')
  | (some (.error _), w') => (some false, w')
  | (none, w') => (none, w')

/-- What a command answers, however it ends. -/
def answers {φ ρ ε : Type} (m : Cmd φ ρ ε ε) : FsM φ ρ ε := fun w =>
  match m.run w with
  | (some (.ok a), w') => (some a, w')
  | (some (.error a), w') => (some a, w')
  | (none, w') => (none, w')

/-- What a CTAP command shows. -/
def shows {α : Type} (m : Ctap.M α) (g : α → Ctap.Out) : FsM Ctap.Flash Ctap.Ram Ctap.Out := fun w =>
  match m.run w with
  | (some (.ok a), w') => (some (g a), w')
  | (some (.error (.code c)), w') => (some (.err c), w')
  | (some (.error (.ub u)), w') => (some (.ub u), w')
  | (none, w') => (none, w')

theorem succeeds_shifts {φ ρ ε α : Type} {m : Cmd φ ρ ε α} (h : CShifts m) : Shifts (succeeds m) := fun w => by
  obtain ⟨k, hk⟩ := h w
  refine ⟨k, ?_⟩
  unfold succeeds
  generalize m.run w = o at hk
  obtain ⟨o, w'⟩ := o
  cases o with
  | none => exact hk
  | some a => cases a <;> exact hk

theorem answers_shifts {φ ρ ε : Type} {m : Cmd φ ρ ε ε} (h : CShifts m) : Shifts (answers m) := fun w => by
  obtain ⟨k, hk⟩ := h w
  refine ⟨k, ?_⟩
  unfold answers
  generalize m.run w = o at hk
  obtain ⟨o, w'⟩ := o
  cases o with
  | none => exact hk
  | some a => cases a <;> exact hk

theorem shows_shifts {α : Type} {m : Ctap.M α} {g : α → Ctap.Out} (h : CShifts m) : Shifts (shows m g) := fun w => by
  obtain ⟨k, hk⟩ := h w
  refine ⟨k, ?_⟩
  unfold shows
  generalize m.run w = o at hk
  obtain ⟨o, w'⟩ := o
  cases o with
  | none => exact hk
  | some a => rcases a with (_ | _) | _ <;> exact hk

/-- The result of another computation. -/
theorem Shifts.map {φ ρ α β : Type} {m : FsM φ ρ α} (h : Shifts m) (g : α → β) :
    Shifts (m >>= fun a => pure (g a)) := Shifts.bind h fun _ => Shifts.pure _

/-! ### The calls of the admin applet and of the boot code -/

theorem pgpInstall_shifts (b : Bool) : CShifts (Pgp.install b) := by
  unfold Pgp.install Pgp.installAll Pgp.installData Pgp.installKey Pgp.installRest Pgp.createPin Pgp.writeKey
    Pgp.resetCtr Pgp.setKey Pgp.setData Pgp.onPin Pin.create Pin.wrFile Pin.wrCtr Pin.wrDflt
  shifts

theorem pivWriteObjs_shifts : ∀ l, CShifts (Piv.writeObjs l)
  | [] => CShifts.pure _
  | (_, _) :: rest => CShifts.bind (CShifts.wrOr _ _) fun _ => pivWriteObjs_shifts rest

theorem pivCreateKeys_shifts : ∀ l, CShifts (Piv.createKeys l)
  | [] => CShifts.pure _
  | (_, _, _) :: rest => CShifts.bind (CShifts.bind (CShifts.wrOr _ _) fun _ => CShifts.wrOr _ _)
      fun _ => pivCreateKeys_shifts rest

theorem pivInstall_shifts (b : Bool) (rnd : Nat → Byte) : CShifts (Piv.install b rnd) := by
  have ho := pivWriteObjs_shifts (Piv.initObjs rnd)
  have hk := pivCreateKeys_shifts Piv.initKeys
  unfold Piv.install Piv.installAll Piv.installMgmt Piv.installPins Piv.onPin Pin.create Pin.wrFile Pin.wrCtr
    Pin.wrDflt
  shifts

theorem oathInstall_shifts (b : Bool) (rnd : Bytes) : CShifts (Oath.install b rnd) := by
  unfold Oath.install
  shifts

theorem passInstall_shifts (b : Bool) : CShifts (Oath.passInstall b) := by
  unfold Oath.passInstall
  shifts

theorem passRead_shifts : CShifts Oath.passRead := by
  unfold Oath.passRead
  shifts

theorem passWrite_shifts (c : Capdu) : CShifts (Oath.passWrite c) := by
  unfold Oath.passWrite Cmd.parse
  shifts

theorem ctapInstall_shifts (i : Ctap.In) (b : Bool) : CShifts (Ctap.install i b) := by
  unfold Ctap.install
  shifts

theorem installKey_shifts (k : Bytes) : CShifts (Ctap.installKeyM k) := by
  unfold Ctap.installKeyM
  shifts

theorem installCert_shifts (k : Bytes) : CShifts (Ctap.installCertM k) := by
  unfold Ctap.installCertM
  shifts

theorem writeSm2_shifts (k : Ctap.Sm2) : CShifts (Ctap.writeSm2M k) := by
  unfold Ctap.writeSm2M Ctap.failIf Ctap.fail
  shifts

/-- `openpgp_install`. -/
def pgpSub (reset : Bool) : Admin.Sub Fl Rm Bool :=
  ⟨FsM.zoom pgpF pgpR (succeeds (Pgp.install reset)), Shifts.zoom _ _ (succeeds_shifts (pgpInstall_shifts reset))⟩

/-- `piv_install`. -/
def pivSub (reset : Bool) : Admin.Sub Fl Rm Bool :=
  ⟨fun w => FsM.zoom pivF pivR (succeeds (Piv.install reset w.ram.rnd.piv)) w,
   fun w => Shifts.zoom _ _ (succeeds_shifts (pivInstall_shifts reset _)) w⟩

/-- `oath_install`. -/
def oathSub (reset : Bool) : Admin.Sub Fl Rm Bool :=
  ⟨fun w => FsM.zoom oathF oathR (succeeds (Oath.install reset w.ram.rnd.oath)) w,
   fun w => Shifts.zoom _ _ (succeeds_shifts (oathInstall_shifts reset _)) w⟩

/-- `pass_install`. -/
def passSub (reset : Bool) : Admin.Sub Fl Rm Bool :=
  ⟨FsM.zoom oathF oathR (succeeds (Oath.passInstall reset)),
   Shifts.zoom _ _ (succeeds_shifts (passInstall_shifts reset))⟩

/-- `ctap_install` (`/repo/applets/ctap/ctap.c:66-94`) returns a `uint8_t`: its error 0xF1 is not negative. -/
def ctapSub (reset : Bool) : Admin.Sub Fl Rm Bool :=
  ⟨fun w => FsM.zoom ctapF ctapR (shows (Ctap.install w.ram.rnd.ctap reset) (fun _ => .done) >>= fun _ => pure true) w,
   fun w => Shifts.zoom _ _ (Shifts.map (shows_shifts (ctapInstall_shifts _ reset)) _) w⟩

/-- The answer of the admin applet to a forwarded CTAP function: `ok` says which results are not negative. -/
def fwdSw (ok : Ctap.Out → Bool) (o : Ctap.Out) : Reply :=
  match o with
  | .ub u => .ub u
  | o => if ok o then .sw SW.ok else .sw SW.unable

/-- Only `.done` is a non-negative result. -/
def isDone : Ctap.Out → Bool
  | .done => true
  | _ => false

/-- `ctap_install_private_key` (`ctap.c:96-104`): of its two writes the first fails with the positive code 0xF1, which
the admin applet takes for success. -/
def fwdKey (c : Capdu) : FsM Ctap.Flash Ctap.Ram Reply := do
  if c.lc != 32 then pure (.sw SW.wrongLength)
  else
    let o ← shows (Ctap.installKeyM c.data) (fun _ => .done)
    pure (fwdSw (fun o => isDone o || o == .err Ctap.Code.unhandled) o)

/-- `ctap_install_cert` (`ctap.c:106-109`); `MAX_CERT_SIZE` is 1152. -/
def fwdCert (c : Capdu) : FsM Ctap.Flash Ctap.Ram Reply := do
  if c.lc > 1152 then pure (.sw SW.wrongLength)
  else
    let o ← shows (Ctap.installCertM c.data) (fun _ => .done)
    pure (fwdSw isDone o)

/-- `ctap_read_sm2_config` (`ctap.c:111-117`). -/
def fwdReadSm2 (x : Ext) : FsM Ctap.Flash Ctap.Ram Reply := do
  match ← FsM.read (Ctap.rdCert (·.sm2)) with
  | none => pure (.sw SW.unable)
  | some s => pure (.resp (x.sm2Bytes s) SW.ok)

/-- `ctap_write_sm2_config` (`ctap.c:119-124`). -/
def fwdWriteSm2 (x : Ext) (c : Capdu) : FsM Ctap.Flash Ctap.Ram Reply := do
  if c.lc != 12 then pure (.sw SW.wrongLength)
  else
    let o ← shows (Ctap.writeSm2M (x.sm2 c.data)) (fun _ => .done)
    pure (fwdSw isDone o)

/-- The functions of other applets behind `admin_process_apdu` (`/repo/applets/admin/admin.c:247-252,273-278,
296-301`). -/
def fwdM (x : Ext) (c : Capdu) : FsM Fl Rm Reply :=
  if c.ins == 0x01 then FsM.zoom ctapF ctapR (fwdKey c)
  else if c.ins == 0x02 then FsM.zoom ctapF ctapR (fwdCert c)
  else if c.ins == 0x11 then FsM.zoom ctapF ctapR (fwdReadSm2 x)
  else if c.ins == 0x12 then FsM.zoom ctapF ctapR (fwdWriteSm2 x c)
  else if c.ins == 0x43 then FsM.zoom oathF oathR (answers Oath.passRead)
  else if c.ins == 0x44 then FsM.zoom oathF oathR (answers (Oath.passWrite c))
  else pure (.sw SW.insNotSupported)

theorem fwdM_shifts (x : Ext) (c : Capdu) : Shifts (fwdM x c) := by
  unfold fwdM
  have h1 : Shifts (fwdKey c) := Shifts.ite (Shifts.pure _)
    (Shifts.bind (shows_shifts (installKey_shifts _)) fun _ => Shifts.pure _)
  have h2 : Shifts (fwdCert c) := Shifts.ite (Shifts.pure _)
    (Shifts.bind (shows_shifts (installCert_shifts _)) fun _ => Shifts.pure _)
  have h3 : Shifts (fwdReadSm2 x) := Shifts.bind (Shifts.read _) fun o => by cases o <;> exact Shifts.pure _
  have h4 : Shifts (fwdWriteSm2 x c) := Shifts.ite (Shifts.pure _)
    (Shifts.bind (shows_shifts (writeSm2_shifts _)) fun _ => Shifts.pure _)
  exact Shifts.ite (Shifts.zoom _ _ h1) (Shifts.ite (Shifts.zoom _ _ h2) (Shifts.ite (Shifts.zoom _ _ h3)
    (Shifts.ite (Shifts.zoom _ _ h4) (Shifts.ite (Shifts.zoom _ _ (answers_shifts passRead_shifts))
      (Shifts.ite (Shifts.zoom _ _ (answers_shifts (passWrite_shifts c))) (Shifts.pure _))))))

/-- Static storage at power-on. -/
def Rm.init (r : Rnd) : Rm := ⟨Pgp.Ram.init, Piv.Ram.init, Oath.Ram.init, Ctap.Ram.init, r⟩

/-- The other applets as the admin applet sees them. -/
def admExt (x : Ext) : Admin.Ext Fl Rm where
  neq := x.neq
  pgp := pgpSub
  piv := pivSub
  oath := oathSub
  ctap := ctapSub
  pass := passSub
  fwd c := ⟨fwdM x c, fwdM_shifts x c⟩

/-! ### The FIDO applet behind the dispatcher -/

/-- `sizeof(credential_id)` (`/repo/applets/ctap/ctap-internal.h:239-244`). -/
def cidLen : Nat := 70

/-- What a command to the FIDO applet asks for. -/
inductive Fido where
  | cbor (q : Ctap.Req)
  | u2f (q : Ctap.UReq)
  | plain (r : Reply)

/-- "U2F_V2". -/
def u2fV2 : Bytes := [0x55, 0x32, 0x46, 0x5F, 0x56, 0x32]

/-- `ctap_process_apdu_with_src` (`/repo/applets/ctap/ctap.c:2246-2295`), the length tests of `u2f.c:17,69-70` and
`u2f.c:105-116`.  An empty CTAP2 message is a negative result of `ctap_process_cbor` (`ctap.c:2163`). The guard
`current_cmd_src` is the subject of `Verif/Model/Nfc.lean`. -/
def fidoReq (x : Ext) (m : Ctap.Ram) (c : Capdu) : Fido :=
  if c.cla == 0x80 then
    if c.ins == 0x10 then
      if c.lc == 0 then .plain (.sw SW.unable) else .cbor (x.decode m c.data)
    else .plain (.sw SW.insNotSupported)
  else if c.cla == 0x00 then
    if c.ins == 0x01 then
      if c.lc != 64 then .plain (.sw SW.wrongLength)
      else .u2f (.register (c.data.take 32) (c.data.drop 32))
    else if c.ins == 0x02 then
      if c.lc != 65 + cidLen then .plain (.sw SW.wrongData)
      else if c.data.getD 64 0 != UInt8.ofNat cidLen then .plain (.sw SW.wrongLength)
      else .u2f (.authenticate (c.data.take 32) ((c.data.drop 32).take 32) (c.data.drop 65) (c.p1 == 0x07))
    else if c.ins == 0x03 then
      if c.lc != 0 then .plain (.sw SW.wrongLength) else .plain (.resp u2fV2 SW.ok)
    else if c.ins == 0xA4 then .plain (.resp u2fV2 SW.ok)
    else if c.ins == 0x10 then .plain (.sw SW.ok)
    else .plain (.sw SW.insNotSupported)
  else .plain (.sw SW.claNotSupported)

/-- The response to a U2F command: the status words of `u2f.c`. -/
def u2fReply (x : Ext) (o : Ctap.Out) : Reply :=
  match o with
  | .ub u => .ub u
  | .err c =>
    if c == Ctap.swTouch then .sw SW.conditions
    else if c == Ctap.swData then .sw SW.wrongData
    else .sw SW.unable
  | o => .resp (x.encode o) SW.ok

/-- The response to a CTAP2 command: its status is in the first byte of the data. -/
def cborReply (x : Ext) (o : Ctap.Out) : Reply :=
  match o with
  | .ub u => .ub u
  | o => .resp (x.encode o) SW.ok

/-- `ctap_process_apdu`. -/
def fidoM (x : Ext) (i : Ctap.In) (c : Capdu) : FsM Ctap.Flash Ctap.Ram Reply := fun w =>
  match fidoReq x w.ram c with
  | .plain r => (some r, w)
  | .cbor q => (shows (Ctap.process x.ctap i q) .resp >>= fun o => pure (cborReply x o)) w
  | .u2f q => (shows (Ctap.u2f x.ctap i q) .u2f >>= fun o => pure (u2fReply x o)) w

/-! ### The dispatcher -/

/-- What the surroundings contribute to a command of the host. -/
structure In where
  pgp : Pgp.In
  piv : Piv.In
  oath : Oath.In
  ctap : Ctap.In
  adm : Admin.In
  ndef : Ndef.In
  rnd : Rnd

/-- `*_process_apdu` of the applets on their part of flash and RAM. -/
def deliver (x : Ext) (i : In) (a : Applet) (c : Capdu) : FsM Flash Ram Reply :=
  match a with
  | .openpgp => FsM.zoom Admin.othF Admin.othR (FsM.zoom pgpF pgpR (answers (Pgp.process x.pgp { i.pgp with c := c })))
  | .piv => FsM.zoom Admin.othF Admin.othR (FsM.zoom pivF pivR (answers (Piv.process x.piv { i.piv with c := c })))
  | .oath => FsM.zoom Admin.othF Admin.othR
      (FsM.zoom oathF oathR (answers (Oath.process x.oath { i.oath with c := c })))
  | .fido => FsM.zoom Admin.othF Admin.othR (FsM.zoom ctapF ctapR (fidoM x i.ctap c))
  | .ndef => FsM.zoom Admin.ndefF Admin.ndefR (answers (Ndef.process { i.ndef with c := c }))
  | .admin => answers (Admin.process (admExt x) { i.adm with c := c })

/-- `applets_poweroff` (`/repo/src/applets.c:20-26`): all applets but FIDO. -/
def powerOff (r : Ram) : Ram :=
  let r := Admin.poweroff r
  { r with
    ndef := Ndef.poweroff r.ndef
    others := { r.others with
      pgp := Pgp.poweroff r.others.pgp
      piv := Piv.poweroff r.others.piv
      oath := Oath.poweroff r.others.oath } }

/-- What `process_apdu` does with a command: answer it, or hand a command to an applet.  `switch` says that all
applets are powered off first; `chained` that the answer goes through the chaining buffer, with the room the host
has given. -/
inductive Route where
  | local (d : Disp) (r : Rapdu)
  | call (d : Disp) (switch : Bool) (a : Applet) (c : Capdu) (chained : Bool)

/-- The dispatch to the current applet (`/repo/src/apdu.c:211-256`). -/
def routeTo (d : Disp) (switch : Bool) (c : Capdu) : Route :=
  match d.current with
  | none => .local d ⟨[], Apdu.SW_FILE_NOT_FOUND⟩
  | some a => .call d switch a c a.chained

/-- `/repo/src/apdu.c:179-256`. -/
def routeLast (ndef : Bool) (d : Disp) : C Route := do
  let d := { d with chain := { d.chain with le := min d.chain.le Apdu.bufSize } }
  let c := d.chain.capdu
  if (c.cla == (0x80 : Byte) || c.cla == (0x00 : Byte)) && c.ins == (0xC0 : Byte) then
    let (ch, out) ← Apdu.apduOutput d.chain c.le
    return .local { d with chain := ch } out
  let d := { d with chain := { d.chain with sent := 0 } }
  if c.cla == 0x00 && c.ins == 0xA4 && c.p1 == 0x04 && c.p2 == 0x00 then
    match Applet.order.find? (·.matches c.data) with
    | none => return .local d ⟨[], Apdu.SW_FILE_NOT_FOUND⟩
    | some a =>
      if a == .ndef && !ndef then return .local d ⟨[], Apdu.SW_FILE_NOT_FOUND⟩
      return routeTo { d with pivState := if a = .piv then .other else d.pivState, current := some a }
        (decide (some a ≠ d.current)) c
  else return routeTo d false c

/-- `process_apdu` (`/repo/src/apdu.c:150-261`) up to the call of an applet; `ndef` is `cfg_is_ndef_enable()`. -/
def route (ndef : Bool) (d : Disp) (c : Capdu) : C Route := do
  if c.cla == 0xFF && c.ins == 0xEE && c.p1 == 0xFF && c.p2 == 0xEE then
    return .local d ⟨[], Apdu.SW_NO_ERROR⟩
  let off := if d.current == some .piv then Apdu.pivOffload d.pivState c.ins else (d.pivState, false)
  let d := { d with pivState := off.1 }
  if off.2 then return .call d false .piv { c with le := min c.le Apdu.bufSize } false
  let (ch, res) ← Apdu.apduInput d.chain c
  let d := { d with chain := ch }
  match res with
  | .notLast => return .local d ⟨[], Apdu.SW_NO_ERROR⟩
  | .overflow => return .local d ⟨[], Apdu.SW_CHECKING_ERROR⟩
  | .last => routeLast ndef d

/-- The answer of the applet as the host receives it (`/repo/src/apdu.c:211-256`). -/
def finish (d : Disp) (c : Capdu) (chained : Bool) (r : Rapdu) : C (Disp × Rapdu) := do
  if chained then
    let buf ← wrRange d.chain.buf 0 r.data
    let (ch, out) ← Apdu.apduOutput { d.chain with buf := buf, rlen := r.data.length, rsw := r.sw } c.le
    return ({ d with chain := ch }, out)
  else return (d, r)

/-! ### Histories -/

/-- Everything that can happen to the card. -/
inductive Op where
  /-- a command of the host over CCID, WebUSB or NFC (`process_apdu`) -/
  | apdu (c : Capdu) (i : In)
  /-- a CTAP2 message over CTAPHID -/
  | cbor (q : Ctap.Req) (i : Ctap.In)
  /-- a U2F message over CTAPHID -/
  | u2f (q : Ctap.UReq) (i : Ctap.In)
  /-- the key is touched for the keyboard (`/repo/interfaces/USB/class/kbdhid/kbdhid.c`) -/
  | touch (long : Bool)
  /-- CCID power-on or power-off (`/repo/interfaces/USB/class/ccid/ccid.c:132,150`) -/
  | power
  /-- power is lost and comes back: `applets_install` -/
  | boot (r : Rnd)

/-- What the host or the user observes. -/
inductive Host where
  | reply (r : Rapdu)
  | ctap (o : Ctap.Out)
  | typed (o : Oath.Out)
  | none
  /-- power was cut during the operation -/
  | cut
  /-- undefined behaviour -/
  | ub

/-- The call of an applet by the dispatcher: whether the applets were powered off first, the applet, the command it got
and its answer, `none` if power was cut before. -/
structure Call where
  switch : Bool
  to : Applet
  cmd : Capdu
  ans : Option Reply

/-- What is observed, and the applet called. -/
structure Out where
  host : Host
  call : Option Call

/-- `ram` is `none` while the device is off. -/
structure St where
  flash : Flash
  ram : Option (Ram × Disp)

/-- `apdu.c:150-261` after routing. -/
def handle (x : Ext) (f : Flash) (r : Ram) (i : In) (rt : Route) (env : Env) : St × Out :=
  match rt with
  | .local d a => (⟨f, some (r, d)⟩, ⟨.reply a, none⟩)
  | .call d switch a c chained =>
    let r := if switch then powerOff r else r
    match deliver x i a c ⟨f, { r with others := { r.others with rnd := i.rnd } }, env⟩ with
    | (none, w) => (⟨w.flash, none⟩, ⟨.cut, some ⟨switch, a, c, none⟩⟩)
    | (some (.ub u), w) => (⟨w.flash, some (w.ram, d)⟩, ⟨.ub, some ⟨switch, a, c, some (.ub u)⟩⟩)
    | (some (.resp data sw), w) =>
      match finish d c chained ⟨data, UInt16.ofNat sw⟩ with
      | .ok (d, out) => (⟨w.flash, some (w.ram, d)⟩, ⟨.reply out, some ⟨switch, a, c, some (.resp data sw)⟩⟩)
      | .error _ => (⟨w.flash, some (w.ram, d)⟩, ⟨.ub, some ⟨switch, a, c, some (.resp data sw)⟩⟩)

/-- Run a CTAP message. -/
def execCtap (m : FsM Ctap.Flash Ctap.Ram Ctap.Out) (f : Flash) (r : Ram) (d : Disp) (env : Env) : St × Out :=
  match FsM.zoom Admin.othF Admin.othR (FsM.zoom ctapF ctapR m) ⟨f, r, env⟩ with
  | (none, w) => (⟨w.flash, none⟩, ⟨.cut, none⟩)
  | (some o, w) => (⟨w.flash, some (w.ram, d)⟩, ⟨.ctap o, none⟩)

def step (x : Ext) (s : St) (op : Op) (env : Env) : St × Out :=
  match op, s.ram with
  | .boot r, _ =>
    match Admin.boot (admExt x) ⟨s.flash, Admin.Ram.init (Rm.init r), env⟩ with
    | (none, w) => (⟨w.flash, none⟩, ⟨.cut, none⟩)
    | (some _, w) => (⟨w.flash, some (w.ram, Disp.init)⟩, ⟨.none, none⟩)
  | _, none => (s, ⟨.none, none⟩)
  | .apdu c i, some (r, d) =>
    match route r.cfg.ndef d c with
    | .error _ => (s, ⟨.ub, none⟩)
    | .ok rt => handle x s.flash r i rt env
  | .cbor q i, some (r, d) => execCtap (shows (Ctap.process x.ctap i q) .resp) s.flash r d env
  | .u2f q i, some (r, d) => execCtap (shows (Ctap.u2f x.ctap i q) .u2f) s.flash r d env
  | .touch long, some (r, d) =>
    match FsM.zoom Admin.othF Admin.othR (FsM.zoom oathF oathR (Oath.handleTouch x.oath long).run) ⟨s.flash, r, env⟩ with
    | (none, w) => (⟨w.flash, none⟩, ⟨.cut, none⟩)
    | (some (.error e), w) => (⟨w.flash, some (w.ram, d)⟩, ⟨.typed (.reply e), none⟩)
    | (some (.ok a), w) => (⟨w.flash, some (w.ram, d)⟩, ⟨.typed (.typed a), none⟩)
  | .power, some (r, d) => (⟨s.flash, some (powerOff r, d)⟩, ⟨.none, none⟩)

/-- Run a history; the log holds, newest first, every operation with the state before it and what was observed. -/
def run (x : Ext) (s : St) (log : List (St × Op × Out)) : List (Op × Env) → St × List (St × Op × Out)
  | [] => (s, log)
  | (op, env) :: h => run x (step x s op env).1 ((s, op, (step x s op env).2) :: log) h

end Verif.Card
