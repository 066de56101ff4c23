import Verif.Model.Device
/-
What the user-presence properties talk about: functions of the log of observed events (newest first).
-/
namespace Verif.Spec.Device
open Verif.Device

abbrev Log := List (Nat × Ev)

/-- The touch a test may accept after these events: the last registered one, if nothing accepted it and it did not
expire. -/
def pending : Log → Option Touch
  | [] => none
  | (_, .pressed t) :: _ => some t
  | (_, .expired) :: _ | (_, .ok _) :: _ | (_, .taken _) :: _ | (_, .strongSaw _) :: _ => none
  | _ :: l => pending l

/-- When the wait in progress started. -/
def openWait : Log → Option Nat
  | [] => none
  | (n, .began _) :: _ => some n
  | (_, .ok _) :: _ | (_, .cancelled) :: _ | (_, .timeout) :: _ => none
  | _ :: l => openWait l

/-- Since when, and with which touches (newest first), the five-touch test in progress runs. -/
def openStrong : Log → Option (Nat × List Touch)
  | [] => none
  | (n, .strongBegan) :: _ => some (n, [])
  | (_, .strongOk _) :: _ | (_, .strongFail) :: _ => none
  | (_, .strongSaw t) :: l => (openStrong l).map fun p => (p.1, t :: p.2)
  | _ :: l => openStrong l

/-- The touches on which something was granted. -/
def used : Log → List Touch
  | [] => []
  | (_, .ok t) :: l | (_, .taken t) :: l | (_, .strongSaw t) :: l => t :: used l
  | _ :: l => used l

/-- What an event says about the events before it.
* A wait succeeds with the pending touch.
* It fails by timeout only thirty seconds after it started, and is refused only while another one is in progress.
* The five-touch test accepts pending short touches, and succeeds after five rounds with at least one touch each. -/
def Fits (n : Nat) (e : Ev) (l : Log) : Prop :=
  match e with
  | .ok t => pending l = some t ∧ ∃ n0, openWait l = some n0 ∧ n0 ≤ n
  | .timeout => ∃ n0, openWait l = some n0 ∧ n0 + 30000 ≤ n
  | .cancelled | .denied | .keepAlive => ∃ n0, openWait l = some n0 ∧ n0 ≤ n
  | .began _ => openWait l = none
  | .taken t => pending l = some t
  | .strongBegan => openStrong l = none
  | .strongSaw t => pending l = some t ∧ t.short = true ∧ (openStrong l).isSome
  | .strongOk rounds => rounds.length = 5 ∧ (∀ r ∈ rounds, r ≠ []) ∧
      ∃ n0, openStrong l = some (n0, rounds.flatten) ∧ n0 ≤ n
  | .strongFail => (openStrong l).isSome
  | .pressed t => t.time = n ∧ ∀ t' ∈ (pending l).toList ++ used l, t'.id < t.id
  | .expired => True

/-- The platform drops a touch when it is older than `TOUCH_EXPIRE_TIME` (`/repo/include/common.h:12`). -/
def Prompt (h : List Op) : Prop :=
  ∀ p, p <+: h → ∀ t, (run St.init p).touch = some t → (run St.init p).now ≤ t.time + 1000

end Verif.Spec.Device
