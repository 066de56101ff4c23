import Verif.Props.WebUsb
/-
Cases of C50, and what breaks it.
-/
namespace Verif.WebUsb
open Verif.Spec.WebUsb

def sel : Bytes := [0x00, 0xA4, 0x04, 0x00]

def env (tick : Nat) (r : Bytes) : Env := ⟨tick, r, 0x90, 0x00, [], []⟩

def logOf (r : C St) : Option (List Ev) := match r with | .ok s => some s.log | .error _ => none

/-- A complete exchange, with requests at the wrong time and another interface that wants the buffer. -/
def full : List Op :=
  [.irq (.resp 64 1), .irq (.cmd 4 10), .irq (.cmd 4 11), .irq (.other 2 [1, 2, 3]), .irq (.cmd 4 12)]

example : ∀ op ∈ full, politeOp op := by
  intro op h
  simp only [full, List.mem_cons, List.not_mem_nil, or_false] at h
  rcases h with rfl | rfl | rfl | rfl | rfl <;> simp [politeOp, polite, ownerWeb, Apdu.ownerNone]

/-- A request, its response, the release after two seconds, and another interface that takes the buffer. -/
def full2 : List Op :=
  [.irq (.cmd 4 10), .irq (.data sel), .irq (.other 2 [1, 2, 3]), .loop (env 11 [0x11]), .irq (.stat 20), .irq (.resp 64 30),
   .irq .txSent, .irq (.resp 64 40), .loop (env 2040 []), .loop (env 2041 []), .irq (.other 2 [1, 2, 3])]

example : ∀ op ∈ full2, politeOp op := by
  intro op h
  simp only [full2, List.mem_cons, List.not_mem_nil, or_false] at h
  rcases h with rfl | rfl | rfl | rfl | rfl | rfl | rfl | rfl | rfl | rfl | rfl <;>
    simp [politeOp, polite, ownerWeb, Apdu.ownerNone, env]

example : logOf (run St.init full2) =
    some [.refused, .gave [0x11, 0x90, 0x00], .done sel [0x11, 0x90, 0x00], .received sel, .accepted 4] := by decide +kernel

/-- C50 is false if the host reads a string descriptor: the descriptor is composed in the buffer, and what is executed is
not the command that was sent. -/
theorem C50_refuted :
    logOf (run St.init [.irq (.cmd 4 10), .irq (.data sel), .irq (.desc [0x0A, 0x03, 0x55, 0x00]), .loop (env 11 [])]) =
    some [.done [0x0A, 0x03, 0x55, 0x00] [0x90, 0x00], .received sel, .accepted 4] := by decide +kernel

/-- C50 is false if a request arrives between the check of the timeout and the release of the buffer: the command is
accepted, but the buffer is given to another interface, which overwrites the command. -/
theorem C50_refuted_race :
    logOf (run St.init ([.irq (.cmd 4 10), .irq (.data sel), .loop (env 11 []), .irq (.resp 64 30), .irq .txSent,
      .loop ⟨2041, [], 0x90, 0x00, [.cmd 4 2041], []⟩, .irq (.data sel), .irq (.other 2 [0x00, 0xB0, 0x00, 0x00]),
      .loop (env 2042 [])])) =
    some [.done [0x00, 0xB0, 0x00, 0x00] [0x90, 0x00], .received sel, .accepted 4, .gave [0x90, 0x00],
      .done sel [0x90, 0x00], .received sel, .accepted 4] := by decide +kernel

/-- C50 is false if the device is configured while a command is executed: the response is given out afterwards. -/
theorem C50_refuted_reset :
    logOf (run St.init [.irq (.cmd 4 10), .irq (.data sel), .loop ⟨11, [0x42], 0x90, 0x00, [], [.reset]⟩, .irq (.resp 64 12)]) =
    some [.gave [0x42, 0x90, 0x00], .done sel [0x42, 0x90, 0x00], .reset, .received sel, .accepted 4] := by decide +kernel

def ownerOf (r : C St) : Option Nat := match r with | .ok s => some s.owner | .error _ => none

/-- A host that announces a command and never sends it keeps the buffer, however long the device waits. -/
theorem C50_never_released (ticks : List Nat) :
    ∃ s, run St.init (.irq (.cmd 4 10) :: ticks.map fun t => .loop (env t [])) = .ok s ∧ s.owner = ownerWeb := by
  have h0 : ∃ s, irq St.init (.cmd 4 10) = .ok s ∧ s.owner = ownerWeb ∧ s.st = .recving := ⟨_, rfl, rfl, rfl⟩
  obtain ⟨s, h1, h2, h3⟩ := h0
  have hrun : ∀ (s t : St) (op : Op) (l : List Op), step s op = .ok t → run s (op :: l) = run t l := by
    intro s t op l h
    rw [run, h]
    rfl
  rw [hrun St.init s (.irq (.cmd 4 10)) _ h1]
  induction ticks with
  | nil => exact ⟨s, rfl, h2⟩
  | cons t l ih =>
    have hl : loop s (env t []) = .ok s := by
      have ht : timeout s (env t []) = .ok s := by
        unfold timeout
        rw [if_neg (by rw [h3]; simp)]
      unfold loop
      rw [ht, ok_bind, if_pos (by rw [h3]; decide)]
      rfl
    rw [List.map_cons, hrun s s (.loop (env t [])) _ hl]
    exact ih

end Verif.WebUsb
