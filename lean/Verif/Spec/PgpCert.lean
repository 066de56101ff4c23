import Verif.Spec.PgpData
/-
The three certificates of the OpenPGP card (data object 7F21, OpenPGP card specification 3.4, sections 7.2.5 and 7.2.7), as a
host addresses them: by SELECT DATA, or else the first; GET NEXT DATA goes on from the one that was read.
-/
namespace Verif.Spec.PgpCert
open Verif.Pgp Verif.Spec.Pgp Verif.Spec.PgpData

/-- The certificate with this number; the first has the number 0. (`K` is used for the three places.) -/
def cert (n : Byte) : K := if n = 0 then .sig else if n = 1 then .dec else .aut

/-- The last command that the applet took note of: commands of another class and GET NEXT DATA do not count. None if the
applet was started or deselected since. -/
def last : List Entry → Option (In × Out)
  | (_, .apdu i, out) :: old => if i.c.cla ≠ 0 ∨ i.c.ins = 0xCC then last old else some (i, out)
  | _ => none

/-- The certificate that the next GET DATA or PUT DATA of 7F21 concerns: the one that SELECT DATA has named if that was the
last command, else the first. -/
def meant (log : List Entry) : K :=
  match last log with
  | some (i, out) => if i.c.ins = 0xA5 ∧ out = .reply (.sw 0x9000) then cert i.c.p1 else .sig
  | none => .sig

/-- The number of the certificate that was read last, by GET DATA or by GET NEXT DATA, if that was the last command. -/
def cursor : List Entry → Option Nat
  | (_, .apdu i, out) :: old =>
    if i.c.cla ≠ 0 then cursor old
    else if i.c.ins = 0xCC then (match out with | .reply (.resp _ sw) => if sw = 0x9000 then (cursor old).map (· + 1) else none | _ => none)
    else if i.c.ins = 0xCA ∧ p1p2 i = 0x7F21 then some (nth (meant old))
    else none
  | _ => none

/-- PUT DATA of a certificate. -/
def PutsCert (op : Op) (d : Bytes) : Prop := ∃ i, op = .apdu i ∧ i.c.ins = 0xDA ∧ p1p2 i = 0x7F21 ∧ i.c.data = d

/-- By the log, certificate `k` is `v`: it was written last with `v`, or the applet was installed since and `v` is empty. -/
def Holds (k : K) (v : Bytes) : List Entry → Prop
  | [] => False
  | (s, op, out) :: old =>
    (PutsCert op v ∧ Ok out ∧ meant old = k) ∨ (Reinstalls s.flash op ∧ Ok out ∧ v = []) ∨
    (¬ ((∃ d, PutsCert op d) ∧ Ok out ∧ meant old = k) ∧ ¬ Reinstalls s.flash op ∧ Holds k v old)

/-- SELECT DATA was the last command. -/
def Selected (log : List Entry) : Prop := ∃ i out, last log = some (i, out) ∧ i.c.ins = 0xA5

/-- GET DATA of a certificate was the last command. -/
def Read (log : List Entry) : Prop := ∃ i out, last log = some (i, out) ∧ i.c.ins = 0xCA ∧ p1p2 i = 0x7F21

/-- The history does not do what the card gets wrong: the applet is not left directly after SELECT DATA or GET DATA of a
certificate, a certificate that SELECT DATA has named is not written without success, and SELECT DATA meets no storage
error. -/
def Tidy : List Entry → Prop
  | [] => True
  | (_, op, out) :: old => Tidy old ∧
    ((op = .deselect ∨ op = .factory) → ¬ Selected old ∧ ¬ Read old) ∧
    (∀ d, PutsCert op d → Selected old → Ok out ∨ out = .cut) ∧
    (IsIns op 0xA5 → out ≠ .reply (.sw 0x6900))

end Verif.Spec.PgpCert
