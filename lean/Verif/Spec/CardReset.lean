import Verif.Spec.CardUse
import Verif.Spec.Ctap
/-
What the resets of the admin applet promise: the flash of the whole card after a reset that was reported as done.
-/
namespace Verif.Spec.Card
open Verif.Card

/-- FIDO without anything of its owner: no PIN, no resident credentials, no relying parties, counter and large blobs as
new, and fresh secrets, so that no credential id of before is recognised. -/
structure FidoErased (i : Ctap.In) (f : Ctap.Flash) : Prop where
  pin : f.pinHash = none
  creds : Ctap.rdRecs f = some []
  metas : f.dm = some []
  counter : f.counter = some 0
  blob : f.lb = some Ctap.emptyLb
  kh : Ctap.rdCert (·.kh) f = some i.rndKh
  he : Ctap.rdCert (·.he) f = some i.rndHe

/-- The OATH applet without accounts and access code, with a new id. -/
def oathErased (id : Bytes) : Oath.OathFile := ⟨[], some [], some id⟩

/-- The NDEF applet as new. -/
def ndefNew : Ndef.Flash := ⟨some Ndef.defaultCc, some (Ndef.resize Ndef.initMsg 1024)⟩

/-- The files of the other applets. -/
def setOthers (f : Flash) (o : Fl) : Flash := { f with others := o }

/-- The resets of one applet: RESET OPENPGP (03), RESET PIV (04), RESET OATH (05), RESET NDEF (07), RESET CTAP (09) and
RESET PASS (13).  Each erases its applet and touches nothing else on the card.  The algorithms of PIV ("algorithm
extension") may stay or be set to their defaults. -/
def ResetOne (fido : Prop) (n : Rnd) (ins : Byte) (f f' : Flash) : Prop :=
  (ins = 0x03 → f' = setOthers f { f.others with pgp := Pgp.factory }) ∧
  (ins = 0x04 → ∃ a, f' = setOthers f { f.others with piv := Piv.factory n.piv a }) ∧
  (ins = 0x05 → f' = setOthers f { f.others with oath := { f.others.oath with oath := some (oathErased n.oath) } }) ∧
  (ins = 0x13 → f' = setOthers f { f.others with oath := { f.others.oath with pass := some (.off, .off) } }) ∧
  (ins = 0x07 → f' = { f with ndef := ndefNew }) ∧
  (ins = 0x09 → ∃ c, f' = setOthers f { f.others with ctap := c } ∧ (fido → FidoErased n.ctap c))

/-- FACTORY RESET (50): all of them; the admin PIN is "123456" and the configuration that of a new card.  The serial
number stays. -/
def ResetAll (fido : Prop) (n : Rnd) (f f' : Flash) : Prop :=
  ∃ a c, f' = ⟨some ⟨[0x31, 0x32, 0x33, 0x34, 0x35, 0x36], some 3, some 3⟩, f.sn, some ⟨true, true, true⟩, ndefNew,
      ⟨Pgp.factory, Piv.factory n.piv a, ⟨some (oathErased n.oath), some (.off, .off)⟩, c⟩⟩ ∧
    (fido → FidoErased n.ctap c)

end Verif.Spec.Card
