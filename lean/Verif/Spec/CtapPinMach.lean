import Verif.Spec.Ctap
/-
The PIN of the FIDO applet as a small machine: what the host has to expect from clientPIN.
-/
namespace Verif.Spec.FidoPin
open Verif.Ctap

/-- What the machine keeps: the digest of the PIN (16 bytes), the tries left on flash (none before the first PIN), the
tries left until power is cycled, and the number of the current key-agreement key. -/
structure Mach where
  pin : Option Bytes
  tries : Option Byte
  left : Byte
  ka : Nat

/-- The text without the zeros at its end. -/
def unpad (t : Bytes) : Bytes := (t.reverse.dropWhile (· = 0)).reverse

/-- The PIN in a padded text, if it has 4 to 63 bytes. -/
def pinOf (t : Bytes) : Option Bytes :=
  if 4 ≤ (unpad t).length ∧ (unpad t).length ≤ 63 then some (unpad t) else none

/-- The digest of a PIN. -/
def digest (x : Ext) (p : Bytes) : Bytes := (x.sha p).take 16

/-- The encrypted new PIN and the encrypted digest, in the size of the protocol. -/
def newField (q : CpReq) : Bytes := q.newPinEnc.take (if q.proto = 1 then 64 else 80)
def hashField (q : CpReq) : Bytes := q.pinHashEnc.take (if q.proto = 1 then 16 else 32)

/-- The new PIN that the platform sent under the shared secret `z`. -/
def newPin (x : Ext) (z : Bytes) (q : CpReq) : Option Bytes := (decrypt x z (newField q) q.proto).bind pinOf

/-- The digest of the current PIN that the platform sent under `z`. -/
def shownPin (x : Ext) (z : Bytes) (q : CpReq) : Option Bytes :=
  (decrypt x z (hashField q) q.proto).map (·.take 16)

instance (x : Ext) (key msg sig : Bytes) (proto : Nat) : Decidable (Authenticates x key msg sig proto) :=
  inferInstanceAs (Decidable (_ = _))

/-- Why a PIN is not even compared: none is set, the tries cannot be read, or there are none left on flash or until power
is cycled. -/
def Mach.gate (m : Mach) : Option Byte :=
  if m.pin = none then some 0x35
  else if m.tries = none then some 0xF1
  else if m.tries = some 0 then some 0x32
  else if m.left = 0 then some 0x34
  else none

/-- One try less on flash. -/
def Mach.charge (m : Mach) : Mach := { m with tries := m.tries.map (· - 1) }

/-- A wrong PIN was shown: the status, and the machine after it. changePIN also makes a new key-agreement key. -/
def Mach.wrong (m : Mach) (change : Bool) : Byte × Mach :=
  let m1 := { m.charge with ka := if change then m.ka + 1 else m.ka }
  if m1.tries = some 0 then (0x32, m1)
  else (if m.left = 1 then 0x34 else 0x31, { m1 with left := m.left - 1 })

/-- setPIN. -/
def Mach.setPin (x : Ext) (m : Mach) (q : CpReq) : Out × Mach :=
  if m.pin ≠ none then (.err 0x33, m)
  else match decapsulate x m.ka q.key q.proto with
    | none => (.err 0x01, m)
    | some z =>
      if ¬ Authenticates x (z.take 32) (newField q) q.pinAuth q.proto then (.err 0x33, m)
      else match newPin x z q with
        | none => (.err 0x37, m)
        | some p => (.resp .empty, { m with pin := some (digest x p), tries := some 8 })

/-- changePIN. A new PIN that is refused costs a try, although the current PIN was shown. -/
def Mach.changePin (x : Ext) (m : Mach) (q : CpReq) : Out × Mach :=
  match m.gate with
  | some c => (.err c, m)
  | none => match decapsulate x m.ka q.key q.proto with
    | none => (.err 0x01, m)
    | some z =>
      if ¬ Authenticates x (z.take 32) (newField q ++ hashField q) q.pinAuth q.proto then (.err 0x33, m)
      else if shownPin x z q ≠ m.pin then (.err (m.wrong true).1, (m.wrong true).2)
      else match newPin x z q with
        | none => (.err 0x37, { m.charge with left := 3 })
        | some p => (.resp .empty, { m with pin := some (digest x p), tries := some 8, left := 3 })

/-- getPinToken and getPinUvAuthTokenUsingPinWithPermissions: the answer is the new token, encrypted. -/
def Mach.getToken (x : Ext) (i : In) (m : Mach) (q : CpReq) : Out × Mach :=
  match m.gate with
  | some c => (.err c, m)
  | none => match decapsulate x m.ka q.key q.proto with
    | none => (.err 0x01, m)
    | some z =>
      if shownPin x z q ≠ m.pin then (.err (m.wrong false).1, (m.wrong false).2)
      else (.resp (.token (encrypt x i z i.rndTok q.proto)), { m with tries := some 8, left := 3 })

/-- clientPIN: the answer and the machine after it. -/
def Mach.clientPin (x : Ext) (i : In) (m : Mach) (q : CpReq) : Out × Mach :=
  if q.sub = 1 then (.resp (.retries m.tries), m)
  else if q.sub = 2 then (.resp (.keyAgreement (x.kaPub m.ka)), m)
  else if q.sub = 3 then m.setPin x q
  else if q.sub = 4 then m.changePin x q
  else if q.sub = 5 ∨ q.sub = 9 then m.getToken x i q
  else (.resp .empty, m)

/-- What clientPIN may leave when power fails while it is executed: nothing done; all done; one try less; or the new PIN
in place, with the tries not yet restored. -/
def Mach.torn (x : Ext) (i : In) (m : Mach) (q : CpReq) (m' : Mach) : Prop :=
  m' = m ∨ m' = (m.clientPin x i q).2 ∨
  ((q.sub = 4 ∨ q.sub = 5 ∨ q.sub = 9) ∧ m.gate = none ∧ (decapsulate x m.ka q.key q.proto).isSome = true ∧
    (m.clientPin x i q).1 ≠ .err 0x33 ∧ m' = m.charge) ∨
  (q.sub = 3 ∧ (m.clientPin x i q).1 = .resp .empty ∧ m' = { m with pin := (m.clientPin x i q).2.pin }) ∨
  (q.sub = 4 ∧ (m.clientPin x i q).1 = .resp .empty ∧ m' = { m.charge with pin := (m.clientPin x i q).2.pin })

/-- After a reset: no PIN. -/
def Mach.wiped (m : Mach) : Mach := { m with pin := none, left := 3, ka := m.ka + 1 }

/-- Power is gone. -/
def Mach.off (m : Mach) : Mach := { m with left := 0, ka := 0 }

/-- Power is applied. -/
def Mach.on (m : Mach) : Mach := { m with left := 3, ka := 1 }

/-- One operation of a history: what is seen and the machine after it. -/
inductive Mach.Next (x : Ext) : Mach → Op → Out → Mach → Prop
  | clientPin {m : Mach} {i : In} {q : CpReq} :
      Next x m (.cbor i (.cp (.ok q))) (m.clientPin x i q).1 (m.clientPin x i q).2
  | clientPinCut {m m' : Mach} {i : In} {q : CpReq} (h : m.torn x i q m') : Next x m (.cbor i (.cp (.ok q))) .cut m'.off
  /-- a request that cannot be parsed -/
  | malformed {m : Mach} {i : In} {c : Byte} : Next x m (.cbor i (.cp (.error c))) (.err c) m
  /-- getInfo says whether a PIN is set -/
  | info {m : Mach} {i : In} : Next x m (.cbor i .info) (.resp (.info m.pin.isSome)) m
  /-- reset works in the first ten seconds -/
  | early {m : Mach} {i : In} (h : i.tick ≤ 10000) : Next x m (.cbor i .reset) (.resp .empty) m.wiped
  | late {m : Mach} {i : In} (h : 10000 < i.tick) : Next x m (.cbor i .reset) (.err 0x30) m
  | adminReset {m : Mach} {i : In} : Next x m (.adminReset i) .done m.wiped
  | resetCut {m m' : Mach} {op : Op} (h : op.resets = true) (hm : m' = m ∨ m' = m.wiped) : Next x m op .cut m'.off
  /-- every other command leaves the PIN alone -/
  | other {m : Mach} {op : Op} {o : Out} (h : op.resets = false) (h1 : ∀ i q, op ≠ .cbor i (.cp q))
      (h2 : ∀ i, op ≠ .cbor i .info) (h3 : op.powers = false) (ho : o ≠ .cut) : Next x m op o m
  | otherCut {m : Mach} {op : Op} (h : op.resets = false) (h1 : ∀ i q, op ≠ .cbor i (.cp (.ok q))) : Next x m op .cut m.off
  | powerOn {m : Mach} {i : In} {o : Out} (ho : o ≠ .cut) : Next x m (.powerOn i) o m.on

/-- A history that the machine allows: the operations with what is seen. -/
inductive Mach.Trace (x : Ext) : Mach → List (Op × Out) → Mach → Prop
  | nil {m : Mach} : Trace x m [] m
  | cons {m m' m'' : Mach} {op : Op} {o : Out} {l : List (Op × Out)} (h : Next x m op o m') (ht : Trace x m' l m'') :
      Trace x m ((op, o) :: l) m''

/-- The encrypted fields have the sizes of the protocol, where the subcommand uses them (the buffers of the parser have
80 and 32 bytes). -/
def Whole : Op → Prop
  | .cbor _ (.cp (.ok q)) =>
    (q.sub = 3 ∨ q.sub = 4 → (if q.proto = 1 then 64 else 80) ≤ q.newPinEnc.length) ∧
    (q.sub = 4 ∨ q.sub = 5 ∨ q.sub = 9 → (if q.proto = 1 then 16 else 32) ≤ q.pinHashEnc.length)
  | _ => True

/-- The device is in the state of the machine. -/
structure Shows (m : Mach) (s : St) : Prop where
  /-- the device has been installed -/
  ready : s.flash.lb.isSome = true
  pin : rdCert (·.pin) s.flash = some (m.pin.getD [])
  size : ∀ p, m.pin = some p → p.length = 16
  tries : rdCert (·.pinCtr) s.flash = m.tries
  left : s.ram.consec = m.left
  ka : s.ram.ka = m.ka

end Verif.Spec.FidoPin
