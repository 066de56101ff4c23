import Verif.Props.CcidSafe
/-
CCID: concrete histories.
-/
namespace Verif.Ccid
open Verif.Spec.Ccid

private def env (resp : Bytes) : Env := ⟨resp, 0x90, 0, [], [], []⟩
private def xfr (d : Bytes) : Msg := ⟨0x6F, 0, 7, 0, 0, 0, d⟩

theorem ok_of {r : C St} {Q : St → Prop} [DecidablePred Q]
    (h : (match r with | .ok s => decide (Q s) | .error _ => false) = true) : ∃ s, r = .ok s ∧ Q s := by
  cases r with
  | error u => cases h
  | ok s => exact ⟨s, rfl, of_decide_eq_true h⟩

theorem init_ready : Ready St.init := ⟨rfl, rfl, List.length_replicate, List.length_replicate⟩

/-- **C47 does not hold**: the announced length is not compared with the size of the buffer. -/
theorem C47_refuted : run St.init
    (.packet ((encode (xfr (List.replicate 1400 0))).take 64) ::
      (List.replicate 22 (.packet (List.replicate 64 0)))) = .error .oob := by decide +kernel

/-- **C47 does not hold**: a second command that arrives between two reads of the length of the first makes the decoder
read past the 8-byte buffer of short commands. -/
theorem C47_refuted_race : run St.init
    [.packet (encode (xfr [0, 0xA4, 4, 0])), .loop ⟨[], 0x90, 0, [(encode (xfr (List.replicate 40 0))).take 64], [], []⟩] =
      .error .oob := by decide +kernel

/-- **C46 does not hold for other slots**: the response to an XfrBlock for a slot that does not exist contains the
response to the command before it. -/
theorem C46_stale_response : ∃ s, run St.init
    [.packet (encode (xfr [0, 0xB0, 0, 0])), .loop (env [1, 2, 3, 4]), .finished,
     .packet (encode ⟨0x6F, 1, 8, 0, 0, 0, [0, 0xB0, 0, 0]⟩), .loop (env [])] = .ok s ∧
    s.log.head? = some (.sent (resp ⟨0x6F, 1, 8, 0, 0, 0, []⟩ 0x80 0x40 5 0 [1, 2, 3, 4, 0x90, 0])) :=
  ok_of (by decide +kernel)

/-- **C70 does not hold** for a host that sends a command before the response to the last one is complete: the end of
the transmission releases the buffer, WebUSB takes it, and the rest of the command is written into it. -/
theorem C70_refuted : ∃ s, run St.init
    [.packet (encode (xfr [0, 0xB0, 0, 0])), .loop (env [1]), 
     .packet ((encode (xfr (List.replicate 100 7))).take 64), .finished, .other 3 (List.replicate 100 9),
     .packet (List.replicate 46 7)] = .ok s ∧
    s.owner = 3 ∧ s.buf.take 100 = List.replicate 54 9 ++ List.replicate 46 7 :=
  ok_of (by decide +kernel)

/-- C46: an extended-length command of 107 bytes in two packets, with WebUSB asking for the buffer in between. -/
def longCmd : Bytes := [0, 0xD0, 0, 0, 0, 0, 100] ++ List.replicate 100 5

example : ∃ u, run St.init [.packet ((encode (xfr longCmd)).take 64), .loop (env []), .other 3 [1],
      .packet ((encode (xfr longCmd)).drop 64), .loop (env [1, 2])] = .ok u ∧
    u.log = [.sent (resp (xfr longCmd) 0x80 0 0x81 0 [1, 2, 0x90, 0]), .exec longCmd] := by
  obtain ⟨-, u, -, -, e, -, -, h | h⟩ := C46_xfrblock St.init init_ready (xfr longCmd) rfl rfl (by decide) (.inl rfl)
    ((encode (xfr longCmd)).take 64) [.loop (env []), .other 3 [1], .packet ((encode (xfr longCmd)).drop 64)]
    (by decide +kernel) (by simp [packets]) (by
      intro op hop
      simp only [List.mem_cons, List.not_mem_nil, or_false] at hop
      rcases hop with rfl | rfl | rfl
      · trivial
      · exact ⟨by decide, by decide, by decide⟩
      · trivial) (.inr ⟨_, rfl, by decide +kernel⟩) (env [1, 2]) ⟨rfl, rfl, rfl⟩ (by decide)
  · exact ⟨u, e, h.2⟩
  · exact absurd ⟨0, 0xD0, 0, 0, List.replicate 100 5, 65536, .case3E (List.replicate 100 5) (by decide)⟩ h.1

/-- C46: power on, and what the host sees. -/
example : ∃ u, run St.init [.packet (encode ⟨0x62, 0, 3, 0, 0, 0, []⟩), .loop (env [])] = .ok u ∧
    u.log = [.sent ([0x80, 17, 0, 0, 0, 0, 3, 0, 0x81, 0] ++ theAtr), .poweroff] := ok_of (by decide +kernel)

instance (p : Bytes) : Decidable (Modest p) := by unfold Modest; infer_instance

/-- C47: an XfrBlock of 1342 bytes while packets of other commands arrive during processing. -/
example : ∃ s, run St.init ([.packet (encode (xfr (List.replicate 1342 0))),
    .loop ⟨[], 0x90, 0, [], [encode (xfr [1, 2])], [[1, 2, 3]]⟩]) = .ok s :=
  C47_buffer_safe_partial _ ⟨fun _ => by decide +kernel, fun t _ => ⟨⟨rfl, by decide, by decide, by decide⟩, fun _ _ => trivial⟩⟩

/-- C70: while WebUSB holds the buffer, a command is refused. -/
example : ∃ s, run St.init [.other 3 [9, 9], .packet (encode (xfr [0, 0xB0, 0, 0])), .loop (env [])] = .ok s ∧
    s.owner = 3 ∧ s.buf.take 2 = [9, 9] ∧ s.log = [.sent (resp (xfr []) 0x80 1 0x81 0 [0x64, 0])] :=
  ok_of (by decide +kernel)

end Verif.Ccid
