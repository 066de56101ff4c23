import Verif.Spec.Ctap
/-
Exclude lists of registrations.
-/
namespace Verif.Ctap

/-- The exclude list of `q` bars a registration, for a device with secret `kh`: it has the id of a credential that
this device created for the same relying party, whose existence the platform may learn: it is not protected
by user verification, or the user is verified. -/
def Barred (x : Ext) (kh : Bytes) (q : McReq) (uv : Bool) : Prop :=
  ∃ e ∈ q.exclude, Cid.rp e = q.rpHash ∧ Authentic x kh e ∧ (Cid.cp e = 3 → uv = true)

end Verif.Ctap
