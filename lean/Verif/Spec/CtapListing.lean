import Verif.Model.CtapCmd
/-
What the enumerations of credentialManagement are to list.
-/
namespace Verif.Ctap

/-- The credentials of a relying party that are stored, in the order of their slots. -/
def credsOf (recs : List Dc) (rp : Bytes) : List Dc := recs.filter fun d => !d.deleted && Cid.rp d.cid == rp

/-- The credentials that were returned. -/
def credsIn (l : List Out) : List CmCred := l.filterMap fun o => match o with
  | .resp (.cred c) => some c
  | _ => none

/-- The relying parties that were returned: identifier and hash. -/
def rpsIn (l : List Out) : List (Bytes × Bytes) := l.filterMap fun o => match o with
  | .resp (.rp n h _) => some (n, h)
  | _ => none

/-- A credentialManagement command with subcommand `n`. -/
def Op.cmSub (n : Byte) (o : Op) : Prop := ∃ i q, o = .cbor i (.cm (.ok q)) ∧ q.sub = n

end Verif.Ctap
