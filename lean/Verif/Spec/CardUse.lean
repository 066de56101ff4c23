import Verif.Spec.Card
import Verif.Spec.Pgp
import Verif.Spec.Piv
import Verif.Spec.Admin
/-
When the keys of OpenPGP and PIV and the admin commands may be used, in terms of what happened to the whole card. Logs are newest first; an
entry holds the state before an operation, the operation and what was observed.
-/
namespace Verif.Spec.Card
open Verif.Card

/-! ### OpenPGP -/

/-- The OpenPGP applet got this command and gave this answer. -/
def PgpSaw (e : St × Op × Out) (i : Pgp.In) (o : Pgp.Out) : Prop :=
  ∃ j k, Handed .openpgp e j k ∧ i = { j.pgp with c := k.cmd } ∧ o = answer .reply .cut k.ans

/-- The OpenPGP applet got a VERIFY of PW1 under reference `p2` with the right PIN, and answered with 9000. -/
def Pw1Verified (p2 : Byte) (e : St × Op × Out) : Prop :=
  ∃ i o, PgpSaw e i o ∧ Pgp.VerifiesPw1 p2 e.1.flash.others.pgp (.apdu i) o

/-- PW1 is no longer verified for reference `p2`: the host left the OpenPGP applet, or VERIFY for this reference or CHANGE
REFERENCE DATA for PW1 was answered, or ACTIVATE succeeded. -/
def Pw1Dropped (p2 : Byte) (e : St × Op × Out) : Prop :=
  Leaves .openpgp e ∨ ∃ i o, PgpSaw e i o ∧ (Pgp.Rechecked p2 (.apdu i) o ∨ i.c.ins = 0x44 ∧ Pgp.Ok o)

/-- A signature was given while PW1 had to be verified for each. -/
def SignedOnce (e : St × Op × Out) : Prop :=
  ∃ i o, PgpSaw e i o ∧ Pgp.IsSign i ∧ Pgp.Given o ∧ Pgp.OneShot e.1.flash.others.pgp

/-! ### PIV -/

/-- The PIV applet got this command and gave this answer. -/
def PivSaw (e : St × Op × Out) (i : Piv.In) (o : Piv.Out) : Prop :=
  ∃ j k, Handed .piv e j k ∧ i = { j.piv with c := k.cmd } ∧ o = answer .reply .cut k.ans

/-- The PIN is no longer verified: the host left the PIV applet or selected it anew, the applet was reset, a wrong PIN
was presented, or the PIN was changed. -/
def PinDropped (e : St × Op × Out) : Prop :=
  Leaves .piv e ∨
  ∃ i o, PivSaw e i o ∧ (Piv.Selected (.apdu i) o ∨ Piv.ResetDone (.apdu i) o ∨ Piv.PinRevoked (.apdu i) o)

/-- The PIV applet got a VERIFY or CHANGE REFERENCE DATA with the right PIN, which did not revoke it. -/
def PinPresented (e : St × Op × Out) : Prop :=
  ∃ i o, PivSaw e i o ∧ Piv.PresentsPin e.1.flash.others.piv (.apdu i) ∧ o ≠ .cut ∧ ¬ Piv.PinRevoked (.apdu i) o

/-- A private key of PIV was used. -/
def PivKeyUsed (e : St × Op × Out) : Prop := ∃ i o, PivSaw e i o ∧ Piv.KeyUsed (.apdu i) o

/-- The user was present at time `t` during a command for a key with a touch policy. -/
def PivTouched (t : Nat) (e : St × Op × Out) : Prop :=
  ∃ i o k m, PivSaw e i o ∧ i.c.ins = 0x87 ∧ Verif.Piv.refOf i.c.p2 = some k ∧
    Verif.Piv.metaOf k e.1.flash.others.piv = some m ∧
    (m.touch = 2 ∨ m.touch = 3) ∧ i.nfc = false ∧ i.present = true ∧ i.tick' = t

/-- The device was restarted or lost power. -/
def Restarted (e : St × Op × Out) : Prop := (∃ r, e.2.1 = .boot r) ∨ e.2.2.host = .cut

/-- The PIN policy of a key is satisfied on the card (1 never, 3 always, otherwise once). -/
def PinSatisfied (log : List (St × Op × Out)) (m : KeyFile.Meta) : Prop :=
  (m.pin ≠ 1 → Since PinPresented PinDropped log) ∧
  (m.pin = 3 → Since PinPresented (fun e => PinDropped e ∨ PivKeyUsed e) log)

/-- The touch policy of a key is satisfied on the card (2: for this command; 3: now or less than 15 s ago). -/
def TouchSatisfied (log : List (St × Op × Out)) (i : Piv.In) (m : KeyFile.Meta) : Prop :=
  i.nfc = true ∨
  ((m.touch = 2 → i.present = true) ∧
   (m.touch = 3 → i.present = true ∨ ∃ t, Since (PivTouched t) Restarted log ∧ t < i.tick ∧ i.tick < t + 15000))

/-! ### Admin -/

/-- The admin applet got this command and gave this answer. -/
def AdmSaw (e : St × Op × Out) (i : Admin.In) (o : Admin.Out) : Prop :=
  ∃ j k, Handed .admin e j k ∧ i = { j.adm with c := k.cmd } ∧ o = answer .reply .cut k.ans

/-- The admin applet got a VERIFY with the right PIN. -/
def AdminVerified (e : St × Op × Out) : Prop :=
  ∃ i o, AdmSaw e i o ∧ Admin.IsVerify i.c ∧ Admin.RightPin e.1.flash i.c ∧ o ≠ .cut

/-- The admin PIN is no longer verified: the host left the admin applet, presented a PIN again, changed the PIN (or this
failed for another reason than wrong parameters, a wrong length or that it was not verified), or the device was reset. -/
def AdminDropped (e : St × Op × Out) : Prop :=
  Leaves .admin e ∨
  ∃ i o, AdmSaw e i o ∧
    (Admin.IsVerify i.c ∨
     i.c.ins = 0x21 ∧ o ≠ .reply (.sw 0x6A86) ∧ o ≠ .reply (.sw 0x6700) ∧ o ≠ .reply (.sw 0x6982) ∨
     i.c.ins = 0x50 ∧ o = .reply (.sw 0x9000))

end Verif.Spec.Card
