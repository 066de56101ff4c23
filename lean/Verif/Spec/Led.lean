import Verif.Model.Led
/-
What the owner sees of the light: it has a normal state, and it may be blinking.
-/
namespace Verif.Spec.Led
open Verif.Led (Op)

/-- The light blinks: how often it has changed, how fast it changes, and until when. -/
structure Blink where
  flips : Nat
  interval : Nat
  ends : Option Nat

/-- Is its time over? -/
def Blink.over (b : Blink) (now : Nat) : Bool :=
  match b.ends with
  | some u => decide (u < now)
  | none => false

/-- The time, the normal state, what is going on, and when the light last changed in a blink. -/
structure Lamp where
  now : Nat
  normal : Bool
  blink : Option Blink
  changed : Nat
  touched : Bool
  nfc : Bool

/-- Is the light on? A blinking light shows the opposite of the normal state after every odd change. -/
def Lamp.lit (l : Lamp) : Bool :=
  match l.blink with
  | none => l.normal
  | some b => if b.flips % 2 = 1 then !l.normal else l.normal

/-- Blinking begins with a change, unless the light is blinking. -/
def Lamp.begin (l : Lamp) (sec interval : Nat) : Lamp :=
  match l.blink with
  | some _ => l
  | none => { l with blink := some ⟨1, interval, if sec = 0 then none else some (l.now + 1000 * sec)⟩, changed := l.now }

/-- Blinking ends when its time is over; before, the light changes when the interval is over. -/
def Lamp.look (l : Lamp) : Lamp :=
  match l.blink with
  | none => l
  | some b =>
    if b.over l.now then { l with blink := none }
    else if l.changed + b.interval ≤ l.now then
      { l with blink := some { b with flips := b.flips + 1 }, changed := l.now }
    else l

/-- One event. -/
def Lamp.step (l : Lamp) : Op → Lamp
  | .pass ms => { l with now := l.now + ms }
  | .update => l.look
  | .start sec i => l.begin sec.toNat i.toNat
  | .ask sec q => if l.nfc then l else l.begin sec.toNat (if q then 25 else 200)
  | .stop => { l with blink := none }
  | .config b => { l with normal := b, blink := none }
  | .touch b => { l with touched := b }
  | .nfc b => { l with nfc := b }

/-- A touch is for the keyboard if the light does not ask for one, has not changed for a second, and the device has been
on for a while. -/
def Lamp.Keyboard (l : Lamp) : Prop :=
  l.touched = true ∧ l.blink.isNone ∧ 1500 < l.now ∧ l.changed + 1000 < l.now

/-- A light at power-on. -/
def Lamp.new (normal : Bool) : Lamp := ⟨0, normal, none, 0, false, false⟩

/-- The time of a history. -/
def time : List Op → Nat
  | [] => 0
  | .pass ms :: h => ms + time h
  | _ :: h => time h

end Verif.Spec.Led
