import Verif.Props.HidSafe
/-
CTAPHID: concrete histories.
-/
namespace Verif.Hid
open Verif.Spec.Hid

private def env (t : Nat) (resp : Bytes := []) : Env := ⟨t, 0xA1B2C3D4, resp, 0x90, 0⟩
private def f1 (cid : UInt32) (cmd : Byte) (len : Nat) (d : Bytes) : Frame := ⟨cid, initBody cmd len d⟩
private def fc (cid : UInt32) (q : Byte) (d : Bytes) : Frame := ⟨cid, contBody q d⟩
private def one (f : Frame) (t : Nat) : List Op := [.recv f, .loop (env t) [] []]

theorem ok_of {r : C St} {Q : St → Prop} [DecidablePred Q]
    (h : (match r with | .ok s => decide (Q s) | .error _ => false) = true) : ∃ s, r = .ok s ∧ Q s := by
  cases r with
  | error u => cases h
  | ok s => exact ⟨s, rfl, of_decide_eq_true h⟩

/-- A PING of 1300 bytes, an INIT command announcing 65535 bytes on the same channel, the last packets of the PING. -/
def overflow : List Op :=
  one (f1 1 cPing 1300 (List.replicate 57 0)) 0 ++
  ((List.range 21).flatMap fun i => one (fc 1 (UInt8.ofNat i) (List.replicate 59 0)) 0) ++
  one (f1 1 cInit 65535 []) 0 ++ one (fc 1 21 (List.replicate 59 0)) 0

/-- **C44 does not hold**: four 64-byte packets' worth of malice are enough. The INIT command is refused, but its length
replaces that of the pending message, and the next packet is stored behind the buffer. -/
theorem C44_refuted : run St.init overflow = .error .oob := by decide +kernel

/-- The same history without the INIT command is harmless. -/
example : (run St.init (overflow.take 44 ++ overflow.drop 46)).toBool = true := by decide +kernel

/-- **C44 does not hold**: a MSG of 7 bytes makes the CTAP layer believe that 65535 bytes of data follow in the buffer
of 1300 bytes. -/
theorem C44_refuted_msg : ∃ s, run St.init (one (f1 1 cMsg 7 [0, 1, 3, 0, 0, 0xFF, 0xFF]) 0) = .ok s ∧
    Ev.apdu [0, 1, 3, 0] 65535 ∈ s.log := ok_of (by decide +kernel)

/-- **C43 does not hold**: a frame of channel 2 that arrives while the response to channel 1 is being sent (between its
first and its second packet) redirects the rest of the response to channel 2, and is itself lost. -/
theorem C43_refuted : ∃ s, run St.init (
      [.recv (f1 1 cPing 100 (List.replicate 57 7)), .loop (env 0) [] [], .recv (fc 1 0 (List.replicate 43 8)),
       .loop (env 0) [] [none, some (f1 2 cPing 1 [9])]] ++ [.loop (env 1) [] [], .loop (env 2) [] []]) = .ok s ∧
    (sent s.log).map (·.cid) = [1, 2] ∧ dispatched s.log = [(1, cPing, List.replicate 57 7 ++ List.replicate 43 8)] :=
  ok_of (by decide +kernel)

/-- **C45 does not hold**: while the device waits for the user on behalf of channel 1, a PING on channel 1 (refused as
busy) releases the channel, a PING on channel 2 takes it over, and the response to channel 1 goes to channel 2. -/
theorem C45_refuted : ∃ s, run St.init
      [.recv (f1 1 cCbor 1 [4]),
       .loop (env 0 [0, 1, 2]) [.recv (f1 1 cPing 1 [9]), .loop 0, .recv (f1 2 cPing 1 [9]), .loop 0] []] = .ok s ∧
    dispatched s.log = [(1, cCbor, [4])] ∧
    sent s.log = [errorFrame 1 6, errorFrame 2 6] ++ encode 2 cCbor [0, 1, 2] :=
  ok_of (by decide +kernel)

/-- A message whose next packet comes after the timeout: the host is told that the message timed out, and that the
command of this error report is unknown; a new message in place of that packet is lost. -/
theorem C42_timeout_swallows : ∃ s, run St.init
      [.recv (f1 1 cPing 100 (List.replicate 57 7)), .loop (env 0) [] [], .recv (f1 2 cPing 1 [9]), .loop (env 801) [] []] =
        .ok s ∧ dispatched s.log = [(1, cError, [5])] ∧ sent s.log = [errorFrame 1 5, errorFrame 1 1] :=
  ok_of (by decide +kernel)

theorem init_idle : Idle St.init := ⟨rfl, rfl, List.length_replicate⟩

/-- C42: a PING of 100 bytes in two packets. -/
example : ∃ s', run St.init (feed ((encode 5 cPing (List.replicate 100 3)).zip [env 10, env 400])) = .ok s' ∧ Idle s' ∧
    dispatched s'.log = [(5, cPing, List.replicate 100 3)] :=
  C42_dispatched_once St.init init_idle 5 cPing (List.replicate 100 3) (by decide) (by decide) (by decide) (by simp)
    (by decide) [env 10, env 400] (by decide +kernel) 10 rfl (by decide) (by decide)

/-- C45: the same with a PING of channel 6 in between. -/
example : ∃ s', run St.init (feed [(f1 5 cPing 100 (List.replicate 57 3), env 10), (f1 6 cPing 1 [1], env 20),
      (fc 5 0 (List.replicate 43 3), env 30)]) = .ok s' ∧ Idle s' ∧
    dispatched s'.log = [(5, cPing, List.replicate 100 3)] ∧
    ∃ out, sent s'.log = [errorFrame 6 6] ++ out ∧ decode out = some (5, cPing, List.replicate 100 3) := by
  obtain ⟨s', h1, h2, h3, out, h4, h5, -⟩ := C45_interleaved_partial St.init init_idle 5 cPing (List.replicate 100 3) (by decide)
    (by decide) (by decide) (by simp) (by decide) (f1 5 cPing 100 (List.replicate 57 3), env 10)
    [(f1 6 cPing 1 [1], env 20), (fc 5 0 (List.replicate 43 3), env 30)] (fc 5 0 (List.replicate 43 3), env 30)
    rfl rfl rfl (by decide +kernel) (by decide) (by decide) (by decide)
  exact ⟨s', h1, h2, h3, out, h4, h5⟩

/-- C44: frames of all kinds, also during transmissions. -/
example : ∃ s, run St.init [.recv (f1 1 cPing 65535 []), .loop (env 0) [] [some (fc 1 0 [])], .loop (env 0) [] [],
    .recv (f1 1 cCbor 1300 []), .loop (env 0) [] [none, some (f1 3 cWink 0 [])]] = .ok s :=
  C44_buffer_safe_partial _ (by
    have h1 : Tame (fc 1 0 []) := ⟨rfl, by decide⟩
    have h2 : Tame (f1 3 cWink 0 []) := ⟨rfl, by decide⟩
    intro op hop
    simp only [List.mem_cons, List.not_mem_nil, or_false] at hop
    rcases hop with rfl | rfl | rfl | rfl | rfl
    · exact ⟨rfl, by decide⟩
    · exact ⟨by decide, by simp, by simpa using h1⟩
    · exact ⟨by decide, by simp, by simp⟩
    · exact ⟨rfl, by decide⟩
    · exact ⟨by decide, by simp, by simpa using h2⟩)

end Verif.Hid
