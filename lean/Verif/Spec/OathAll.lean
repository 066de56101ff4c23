import Verif.Spec.Oath
/-
Vocabulary of C106: a host that asks for all codes at once.
-/
namespace Verif.Spec.Oath
open Verif.Oath

/-- The bytes the host collects with CALCULATE ALL and SEND REMAINING, the last status word, and the device
afterwards. The host sends instruction `ins` with P2 = `p2`, data `d` and expected length `le 0`, and as long
as the answer is 61xx SEND REMAINING, without data, with expected lengths `le 1`, `le 2`, ... `none` if there
is no answer, or after `k` pages without an end. -/
def gather (x : Ext) : Nat → (Nat → Nat) → St → Byte → Byte → Bytes → Option (Bytes × SW × St)
  | 0, _, _, _, _, _ => none
  | k + 1, le, s, ins, p2, d =>
    match step x s (.apdu { c := ⟨0, ins, 0, p2, d, le 0⟩, nfc := false, touch := false, rnd := [] })
        (fun _ => .ok) with
    | (s', .reply (.resp b sw)) =>
      if sw = SW.more then
        (gather x k (fun n => le (n + 1)) s' 0xA5 0 []).map fun (b', sw', t) => (b ++ b', sw', t)
      else some (b, sw, s')
    | _ => none

/-- CALCULATE ALL for the challenge `c`, truncated codes or full ones. -/
def gatherAll (x : Ext) (k : Nat) (le : Nat → Nat) (s : St) (trunc : Bool) (c : Bytes) :
    Option (Bytes × SW × St) :=
  gather x k le s 0xA4 (if trunc then 1 else 0) (chalTlv c)

/-- The credential takes part with its last challenge: increasing-only TOTP that needs no touch. -/
def Takes (q : Rec) : Prop := Totp q ∧ IncOnly q ∧ ¬ NeedsTouch q

instance (q : Rec) : Decidable (Takes q) := inferInstanceAs (Decidable (_ ∧ _))

/-- The credential refuses the challenge `c`: it is not of 8 bytes, or lies before the last one. -/
def RefusesChal (c : Bytes) (q : Rec) : Prop := Takes q ∧ (c.length ≠ 8 ∨ num c < num q.chal)

instance (c : Bytes) (q : Rec) : Decidable (RefusesChal c q) := inferInstanceAs (Decidable (_ ∧ _))

/-- The credential after CALCULATE ALL for `c`. -/
def refreshed (c : Bytes) (q : Rec) : Rec := if Takes q then { q with chal := c } else q

end Verif.Spec.Oath
