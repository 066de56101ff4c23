import Verif.Model.Admin
/-
What the admin properties talk about. Logs are newest first; an entry holds the state before an operation,
the operation and what was observed.
-/
namespace Verif.Spec.Admin
open Verif.Admin

/-- The commands open to everyone: SELECT, READ VERSION, READ SN, NFC ENABLE (a vendor hook that gets to know
whether the PIN was verified), FACTORY RESET and VERIFY. -/
def openIns : List Byte := [0xA4, 0x31, 0x32, 0x14, 0x50, 0x20]

/-- A VERIFY command with data. -/
def IsVerify (c : Apdu.Capdu) : Prop := c.ins = 0x20 ∧ c.p1 = 0 ∧ c.p2 = 0 ∧ c.data ≠ []

instance : DecidablePred IsVerify := fun c => inferInstanceAs (Decidable (_ ∧ _ ∧ _ ∧ _))

/-- VERIFY presents the stored PIN while it is not blocked. The candidate is the first `LC mod 256` bytes of
the data. -/
def RightPin {σ : Type} (f : Flash σ) (c : Apdu.Capdu) : Prop :=
  ∃ p n, f.pin = some p ∧ p.ctr = some n ∧ n ≠ 0 ∧ 6 ≤ c.data.length % 256 ∧ c.data.length % 256 ≤ 64 ∧
    c.data.take (c.data.length % 256) = p.data.take 64

/-- The admin PIN was presented, and since then there was no further VERIFY with data, no PIN change, no
factory reset, no switch to another applet and no loss of power. -/
def Authorised {σ τ : Type} : List (St σ τ × Op σ τ × Out) → Prop
  | [] => False
  | (s, .apdu i, o) :: old =>
    o ≠ .cut ∧
    if IsVerify i.c then RightPin s.flash i.c
    else if i.c.ins = 0x21 then
      (o = .reply (.sw 0x6A86) ∨ o = .reply (.sw 0x6700) ∨ o = .reply (.sw 0x6982)) ∧ Authorised old
    else if i.c.ins = 0x50 then o ≠ .reply (.sw 0x9000) ∧ Authorised old
    else Authorised old
  | (_, .ndef _, o) :: old => o ≠ .cut ∧ Authorised old
  | (_, .other _, o) :: old => o ≠ .cut ∧ Authorised old
  | (_, .deselect, _) :: _ => False
  | (_, .boot _, _) :: _ => False

/-- The device was just powered. -/
def Fresh {σ τ : Type} (s : St σ τ) : Prop := ∀ r, s.ram = some r → r.pin.validated = false

/-- The stored admin PIN is blocked: its retry counter is 0 (or there is no PIN at all). -/
def Blocked {σ : Type} (f : Flash σ) : Prop := ∃ p, f.pin = some p ∧ (p.ctr = some 0 ∨ p.data = [])

/-- A short touch was seen in each of five rounds. -/
def FiveTouches (polls : Nat → List Bool) : Prop := ∀ k, k < 5 → true ∈ polls k

/-- The result of a successful run of an action of another applet, under faults in `A`. -/
def Did {σ τ : Type} (A : Fault → Prop) (m : Sub σ τ Bool) (o : σ) (t : τ) (o' : σ) (t' : τ) : Prop :=
  ∃ env e', env.all A ∧ m.val ⟨o, t, env⟩ = (some true, ⟨o', t', e'⟩)

/-- The resets of the other applets succeed whenever their storage operations meet only faults in `A`. -/
def ResetsWork {σ τ : Type} (A : Fault → Prop) (x : Ext σ τ) : Prop :=
  ∀ m ∈ [x.pgp true, x.piv true, x.oath true, x.ctap true, x.pass true],
    ∀ w, (∀ n, A (w.env n)) → (m.val w).1 = some true

end Verif.Spec.Admin
