import Verif.Model.CcidPipe
/-
What the host makes of a bulk pipe with packets of 64 bytes: a message ends with a packet that is not full.
-/
namespace Verif.Spec.CcidPipe

/-- Does the last packet of a transmission end the message? -/
def ends (b : Bytes) : Bool := b.length % 64 ≠ 0 || b.isEmpty

/-- The messages that are complete, and what was received of the next one. -/
def assemble : List Bytes → List Bytes × Bytes :=
  List.foldl (fun (ms, part) b => if ends b then (ms ++ [part ++ b], []) else (ms, part ++ b)) ([], [])

end Verif.Spec.CcidPipe
