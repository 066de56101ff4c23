import Verif.Props.NfcSafe
/-
Cases of the NFC theorems, and blocks that break C48 and C49.
-/
namespace Verif.Nfc
open Verif.Spec.Nfc

/-- An environment without interrupts. -/
def env0 (r : Bytes) : Env := ⟨r, 0x90, 0x00, [], []⟩

def answer (r : C St) : Option (List Bytes) := match r with | .ok s => some (frames s) | .error _ => none

theorem init_ready : Ready St.init true :=
  ⟨rfl, rfl, rfl, rfl, rfl, List.length_replicate, List.length_replicate⟩

/-- A SELECT command in two blocks, the second of which is lost once; the card asks for time. -/
def selParts : List Part := [.block [0x00, 0xA4, 0x04] 0 0 (env0 []), .probe 0 0 (env0 [])]

def selEnv : Env := ⟨List.replicate 40 0x55, 0x90, 0x00, [.wtx, .frame [0xF2, 1, 0, 0]], []⟩

example : Ready St.init (!false) ∧ fits selParts ∧ (bytes selParts ++ [0x00]).length ≤ 1340 ∧ Waits selEnv.mid ∧
    WellFormed (bytes selParts ++ [0x00]) :=
  ⟨init_ready, by simp [fits, selParts], by decide, .cons _ (by decide) .nil,
   ⟨0x00, 0xA4, 0x04, 0x00, [], 0, (Apdu.C05_decode_iff [0, 0xA4, 4, 0] ⟨0, 0xA4, 4, 0, [], 0⟩).1 (by decide)⟩⟩

example : answer (run St.init (chained false selParts ++
    [.irq (.frame (iBlock (after false selParts) false [0x00] 0 0)), .loop selEnv])) =
    some [0x13 :: List.replicate 29 0x55, [0xF2, 1], [0xA2], [0xA2]] := by decide +kernel

def got (r : C (St × Reader)) : Option (Bytes × Bool) := match r with | .ok (_, rd) => some (rd.acc, rd.done) | .error _ => none

/-- The first block is lost, then a request, then the second block. -/
def lossy : List Round :=
  [⟨true, false, 0, 0, env0 []⟩, ⟨false, true, 0, 0, env0 []⟩, ⟨false, false, 0, 0, env0 []⟩, ⟨true, false, 0, 0, env0 []⟩,
   ⟨false, false, 0, 0, env0 []⟩]

example : (do
    let s ← run St.init (chained false selParts ++
      [.irq (.frame (iBlock (after false selParts) false [0x00] 0 0)), .loop selEnv])
    return got (receive s ⟨after false selParts, [], false⟩ (some (0x13 :: List.replicate 29 0x55)) lossy) : C _) =
    .ok (some (List.replicate 40 0x55 ++ [0x90, 0x00], true)) := by decide +kernel

/-- C48 is false if the acknowledgement of a block of a command is lost: asked to repeat it, the card sends part of its
buffer as an I-block, i.e. as the response to a command that it has not yet received. -/
theorem C48_refuted :
    answer (run St.init (turns [⟨iBlock false false [0x00, 0xA4, 0x04, 0x00] 0 0, env0 []⟩] ++
      chained true [.block [0x00, 0xDA, 0x01, 0x01, 0x04] 0 0 (env0 [])] ++ turns [⟨rNak true 0 0, env0 []⟩])) =
    some [[0x03, 0x00, 0xDA], [0xA3], [0x02, 0x90, 0x00]] := by decide +kernel

/-- Another violation: after a reception error during the execution of a command the next command is not executed and
gets the response of the previous one. -/
theorem C48_refuted_error :
    let s := run St.init ([.irq (.frame (iBlock false false [0x00, 0xA4, 0x04, 0x00] 0 0)),
      .loop ⟨[0x11, 0x22], 0x90, 0x00, [.aux], [.frame (iBlock false false [0x00, 0xCA, 0x00, 0x6E] 0 0)]⟩])
    answer s = some [[0x03, 0x11, 0x22, 0x90, 0x00]] ∧
    (match s with | .ok s => executed s | .error _ => []) = [([0x00, 0xA4, 0x04, 0x00], [0x11, 0x22, 0x90, 0x00])] := by
  decide +kernel

/-- C49 is false: 47 chained blocks of 29 bytes overflow the buffer. -/
theorem C49_refuted :
    run St.init (turns (List.replicate 47 ⟨iBlock false true (List.replicate 29 0) 0 0, env0 []⟩)) = .error .oob := by
  decide +kernel

/-- C49 is false: an I-block of two bytes makes the copied length negative. -/
theorem C49_refuted_short : run St.init (turns [⟨[0x02, 0x00], env0 []⟩]) = .error .oob := by decide +kernel

/-- C49 is false: a reader that goes on acknowledging after the end of a response reads memory beyond the buffer. -/
theorem C49_refuted_read :
    run St.init (turns (⟨iBlock false false [0x00, 0xA4, 0x04, 0x00] 0 0, env0 []⟩ ::
      (List.replicate 25 [⟨rAck true 0 0, env0 []⟩, ⟨rAck false 0 0, env0 []⟩]).flatten)) = .error .oob := by
  decide +kernel

/-- After two acknowledgements too many the card gives out what the buffer contained before: here part of an earlier
response. -/
theorem C49_stale :
    answer (run St.init (turns [⟨iBlock false false [0x00, 0xA4, 0x04, 0x00] 0 0, env0 (List.replicate 20 0x77)⟩,
      ⟨iBlock true false [0x00, 0xA4, 0x04, 0x00] 0 0, env0 []⟩, ⟨rAck false 0 0, env0 []⟩, ⟨rAck false 0 0, env0 []⟩])) =
    some [0x02 :: ([0x04, 0x00] ++ List.replicate 16 0x77 ++ [0x90, 0x00] ++ List.replicate 9 0), [0x03, 0x90, 0x00],
      0x02 :: (List.replicate 20 0x77 ++ [0x90, 0x00])] := by
  decide +kernel

/-- Turns that satisfy the hypotheses of `C49_buffer_safe_partial`. -/
def someTurns : List Turn :=
  [⟨iBlock false true [0x00, 0xA4] 0 0, env0 []⟩, ⟨iBlock true false [0x04, 0x00] 0 0, env0 (List.replicate 40 1)⟩,
   ⟨rAck false 0 0, env0 []⟩]

example : (match run St.init (turns someTurns) with | .ok s => decide (Ev.error ∉ s.log) | .error _ => false) = true := by
  decide +kernel

end Verif.Nfc
