import Verif.Props.PivSecret
import Verif.Props.PivEx
/-
C101 on concrete histories.
-/
namespace Verif.Piv.Ex.Secret
open Verif.Piv Verif.Spec.Piv Cmd Verif.Piv.Ex

def verifyPin (d : Bytes) : Op := cmd 0x20 0 0x80 d
def changePin (d d' : Bytes) : Op := cmd 0x24 0 0x80 (d ++ d')
def unblockPin (d d' : Bytes) : Op := cmd 0x2C 0 0x80 (d ++ d')
def otherPin : Bytes := [0x36, 0x35, 0x34, 0x33, 0x32, 0x31, 0xFF, 0xFF]

def secretOps : List Op :=
  [verifyPin [], verifyPin otherPin, verifyPin factoryPin, verifyPin [], changePin factoryPin otherPin, verifyPin [],
   verifyPin factoryPin, verifyPin factoryPin, verifyPin factoryPin, verifyPin otherPin, unblockPin factoryPin otherPin,
   unblockPin factoryPuk factoryPin, verifyPin otherPin, verifyPin factoryPin, cmd 0xFB 0 0 []]

/-- The hypotheses of C101 hold of a concrete history ... -/
example : ∃ m, Mach.new.Trace (observed (run x (step x ⟨fresh, none⟩ (.boot rnd) Env.good).1 [] (good secretOps)).2) m :=
  C101_secrets xOk fresh rfl rnd Env.good (fun _ => rfl) _ fun _ he => ⟨good_all cutOk _ he, fun _ => good_all (A := noFault) rfl _ he⟩

/-- ... whose answers are these: two tries left after a wrong PIN, three after the right one; after three wrong ones the
new PIN is refused; the PUK sets it back. -/
example : ((observed (run x (step x ⟨fresh, none⟩ (.boot rnd) Env.good).1 [] (good secretOps)).2).map (·.2)) =
    [0x63C3, 0x63C2, 0x9000, 0x9000, 0x9000, 0x63C3, 0x63C2, 0x63C1, 0x6983, 0x6983, 0x63C2, 0x9000, 0x63C2, 0x9000,
     0x6982].map (fun sw => .reply (.sw sw)) := by decide +kernel

/-- Power fails while RESET RETRY COUNTER is executed: the file operations up to the `n`th are done. -/
def cutAt (n : Nat) : Env := fun k => if k < n then .ok else .cut

theorem cutAt_all (n : Nat) : (cutAt n).all cutsOnly := fun k => by
  unfold cutAt
  split <;> exact fun h => by cases h

def tornOps (n : Nat) : List (Op × Env) :=
  good [verifyPin otherPin, verifyPin otherPin, verifyPin otherPin] ++
  [(unblockPin factoryPuk otherPin, cutAt n)] ++ good [.boot rnd, verifyPin [], verifyPin otherPin]

/-- The new PIN is there, but it is still blocked: one of the states the machine allows. -/
example : ((observed (run x (step x ⟨fresh, none⟩ (.boot rnd) Env.good).1 [] (tornOps 6)).2).map (·.2)).drop 3 =
    [.cut, .reply (.sw 0x9000), .reply (.sw 0x63C0), .reply (.sw 0x6983)] := by decide +kernel

end Verif.Piv.Ex.Secret
