import Verif.Model.U2fMsg
/-
What a relying party makes of U2F messages (FIDO U2F Raw Message Formats v1.2, sections 4.3 and 5.4).
-/
namespace Verif.Spec.U2fMsg

/-- A registration response: reserved byte, public key, key handle with its length, and the rest: certificate and
signature. -/
def splitReg (m : Bytes) : Option (Bytes × Bytes × Bytes) :=
  match m with
  | 0x05 :: m =>
    let pub := m.take 65
    match m.drop 65 with
    | [] => none
    | n :: m => if pub.length = 65 ∧ n.toNat ≤ m.length then some (pub, m.take n.toNat, m.drop n.toNat) else none
  | _ => none

/-- An authentication response: user presence, counter, signature. -/
def splitAuth (m : Bytes) : Option (Byte × Nat × Bytes) :=
  match m with
  | u :: a :: b :: c :: d :: s => some (u, ((a.toNat * 256 + b.toNat) * 256 + c.toNat) * 256 + d.toNat, s)
  | _ => none

/-- What the signature of a registration covers. -/
def signedReg (app chal kh pub : Bytes) : Bytes := [0x00] ++ app ++ chal ++ kh ++ pub

/-- What the signature of an authentication covers. -/
def signedAuth (app : Bytes) (up : Byte) (ctr chal : Bytes) : Bytes := app ++ [up] ++ ctr ++ chal

/-- The request in the buffer: a challenge and an application. -/
def Requests (b : Bytes) (o : Nat) (chal app : Bytes) : Prop :=
  chal.length = 32 ∧ app.length = 32 ∧ ∃ pre post, b = pre ++ chal ++ app ++ post ∧ pre.length = o

end Verif.Spec.U2fMsg
