import Verif.Props.UsbCmd
import Verif.Props.UsbState
/-
C80 to C85: concrete histories, which show that the hypotheses can be met and where the properties fail.
-/
namespace Verif.Usb.Ex
open Verif.Spec.Usb

/-- A device with all its interfaces, and one whose keyboard is disabled. -/
def dev : Cfg := ⟨0, 1, 2, 3, 1, 2, 3, 64, 64, 8, 16, 0x20a0, 0x42d4, (1, 2, 0xAB, 4), true⟩
def nokbd : Cfg := { dev with ifKbd := 0xFF }

/-- The host gives an address and chooses the configuration. -/
def setup : List Op := [.setup (packet 0 5 7 0 0) 0, .taken, .setup (packet 0 9 1 0 0) 0, .taken]

/-- What is left after a history: the packets sent, the state of the device, of the WebUSB interface, the first bytes of the buffer. -/
def after (c : Cfg) (h : List Op) : Option (List Bytes × Dev × WebUsb.WS × Bytes) :=
  match run c St.init h with
  | .ok s => some (sent s.log, s.dev, s.web, s.buf.take 24)
  | .error _ => none

/-- The result of a computation has a property. -/
def holds (x : C St) (p : St → Bool) : Bool := match x with
  | .ok s => p s
  | .error _ => false

theorem of_holds {x : C St} {p : St → Bool} (h : holds x p = true) : ∃ s, x = .ok s ∧ p s = true := by
  cases x with
  | error => cases h
  | ok s => exact ⟨s, rfl, h⟩

theorem dev_tables : Tables dev := ⟨by decide, by decide, by decide, by decide, by decide, by decide⟩

/-- C80: GET_STATUS in a configured device, in one packet. -/
example : ∃ s, run dev St.init setup = .ok s ∧ s.dev = .configured ∧ s.buf.length = 1342 ∧ Has dev s 0x80 0 0 0 [0, 0] := by
  refine ⟨_, rfl, rfl, by decide +kernel, ?_⟩
  exact Has.status (c := dev) (.inl rfl)

/-- C80, C81: the configuration descriptor, in ten packets, with another function at work and writing behind it. -/
example : (after dev (setup ++ [.setup (packet 0x80 6 0x0200 0 255) 0, .taken, .epIn 1, .write 159 [1, 2, 3], .taken, .taken, .taken, .taken, .taken,
      .taken, .taken, .taken, .taken])).map (fun x => (x.1.length, (x.1.drop 2).flatten)) = some (12, configuration dev) ∧
    Calm 159 (.epIn 1) ∧ Calm 159 (.write 159 [1, 2, 3]) := by
  refine ⟨by decide +kernel, trivial, by decide, by decide⟩

/-- **C80 is false**: a host that asks for one byte of the status gets two. -/
theorem C80_refuted : ∃ c h s t, (∀ op ∈ h, Possible op) ∧ run c St.init h = .ok s ∧ step c s (.setup (packet 0x80 0 0 0 1) 0) = .ok t ∧
    sent t.log = sent s.log ++ [[0, 0]] := by
  refine ⟨dev, setup, _, _, ?_, rfl, rfl, by decide +kernel⟩
  intro op ho
  simp only [setup, List.mem_cons, List.not_mem_nil, or_false] at ho
  rcases ho with rfl | rfl | rfl | rfl <;> first | rfl | trivial

/-- **C81 is false**: without the keyboard, the end of what the host gets as configuration descriptor is what another function of the
device left in the buffer, here the end of a WebUSB response. -/
theorem C81_refuted : ∃ h s t, (∀ op ∈ h, Possible op) ∧ run nokbd St.init h = .ok s ∧
    run nokbd s ([.setup (packet 0x80 6 0x0200 0 255) 0] ++ List.replicate 10 .taken) = .ok t ∧
    ((sent t.log).drop (sent s.log).length).flatten = configuration nokbd ++ List.replicate 32 0x55 := by
  obtain ⟨s, e, h⟩ := of_holds (show holds (run nokbd St.init (setup ++ [.setup (packet 0x41 0 0 1 1) 0, .out [0], .taken, .webDone (List.replicate 200 0x55)]))
    (fun s => holds (run nokbd s ([.setup (packet 0x80 6 0x0200 0 255) 0] ++ List.replicate 10 .taken)) fun t =>
      ((sent t.log).drop (sent s.log).length).flatten = configuration nokbd ++ List.replicate 32 0x55) = true by decide +kernel)
  obtain ⟨t, e', h'⟩ := of_holds h
  refine ⟨_, s, t, ?_, e, e', of_decide_eq_true h'⟩
  intro op ho
  simp only [setup, List.cons_append, List.nil_append, List.mem_cons, List.not_mem_nil, or_false] at ho
  rcases ho with rfl | rfl | rfl | rfl | rfl | rfl | rfl | rfl
  · rfl
  · trivial
  · rfl
  · trivial
  · rfl
  · trivial
  · trivial
  · simp only [Possible, List.length_replicate]; decide

/-- C82: the descriptor of a device without keyboard is not that of one with a keyboard. -/
example : configDesc nokbd ≠ configDesc dev := by
  rw [configDesc_eq, configDesc_eq]
  decide +kernel

/-- **C83 is false**, first reason: a device that was suspended and then reset is configured again by the resumption, and its functions are used. -/
theorem C83_reset_refuted : ∃ s, run dev St.init (setup ++ [.suspend, .reset, .resume, .epIn 1]) = .ok s ∧
    s.dev = .configured ∧ s.log.head? = some (.classIn .ctap) := ⟨_, rfl, by decide +kernel, by decide +kernel⟩

/-- Second reason: if the suspension is reported twice, the device stays suspended after the resumption, and refuses GET_CONFIGURATION. -/
theorem C83_suspend_refuted : ∃ s, run dev St.init (setup ++ [.suspend, .suspend, .resume, .setup (packet 0x80 8 0 0 1) 0]) = .ok s ∧
    s.dev = .suspended ∧ s.log.head? = some .stall := ⟨_, rfl, by decide +kernel, by decide +kernel⟩

/-- A class request that has the number of SET_CONFIGURATION is taken for it. -/
theorem C83_type_refuted : ∃ s, run dev St.init [.setup (packet 0 5 7 0 0) 0, .taken, .setup (packet 0x20 9 1 0 0) 0] = .ok s ∧
    s.dev = .configured ∧ .init ∈ s.log := ⟨_, rfl, by decide +kernel, by decide +kernel⟩

/-- C83: histories that end in each of the states. -/
example : track (.default, false) (setup ++ [.suspend, .write 0 [1], .resume, .epIn 1]) = some (.configured, false) ∧
    track (.default, false) (setup ++ [.suspend]) = some (.configured, true) ∧
    track (.default, false) (setup ++ [.setup (packet 0 9 0 0 0) 0]) = some (.address, false) ∧
    track (.default, false) (setup ++ [.reset]) = some (.default, false) ∧
    toDevice (packet 0 5 7 0 0) ≠ some (9, 1) := by decide +kernel

/-- C84: a packet that does change the buffer. -/
example : ∃ s t, run dev St.init (setup ++ [.setup (packet 0x41 0 0 1 20) 0]) = .ok s ∧ step dev s (.out (List.replicate 16 7)) = .ok t ∧
    t.buf ≠ s.buf ∧ t.buf.take 17 = List.replicate 16 7 ++ [0] := by
  obtain ⟨s, e, h⟩ := of_holds (show holds (run dev St.init (setup ++ [.setup (packet 0x41 0 0 1 20) 0]))
    (fun s => holds (step dev s (.out (List.replicate 16 7))) fun t => t.buf ≠ s.buf ∧ t.buf.take 17 = List.replicate 16 7 ++ [0]) = true by decide +kernel)
  obtain ⟨t, e', h'⟩ := of_holds h
  exact ⟨s, t, e, e', of_decide_eq_true h'⟩

/-- C85: a command in two packets, the second with the main loop at work before it. -/
example : outs [.out (List.replicate 16 7), .webTimeout 9000, .webDone [], .epIn 1] ++ [[1, 2, 3, 4]] = chunks 16 (List.replicate 16 7 ++ [1, 2, 3, 4]) ∧
    (after dev (setup ++ [.setup (packet 0x41 0 0 1 20) 0, .out (List.replicate 16 7), .webTimeout 9000, .webDone [], .epIn 1, .out [1, 2, 3, 4]])).map
      (fun x => (x.2.2.1, x.2.2.2.take 20)) = some (.process, List.replicate 16 7 ++ [1, 2, 3, 4]) := by
  refine ⟨?_, by decide +kernel⟩
  rw [chunks_cons (by decide) (by simp), chunks_cons (by decide) (by simp)]
  simp [chunks_nil, outs]

/-- **C85 is false** for packets that are not full: twelve of the twenty bytes of the command were sent, the other eight are those of an
earlier command. -/
theorem C85_refuted : ∃ s, run dev St.init (setup ++ [.setup (packet 0x41 0 0 1 20) 0, .out (List.replicate 16 7), .out (List.replicate 4 7), .taken,
      .webDone [0x90, 0x00], .setup (packet 0xC1 1 0 1 2) 0, .taken, .setup (packet 0x41 0 0 1 20) 0, .out (List.replicate 8 1), .out (List.replicate 4 2)]) = .ok s ∧
    s.web = .process ∧ s.webSize = 20 ∧ s.buf.take 20 = List.replicate 8 1 ++ List.replicate 4 2 ++ List.replicate 8 7 := by
  obtain ⟨s, e, h⟩ := of_holds (show holds (run dev St.init (setup ++ [.setup (packet 0x41 0 0 1 20) 0, .out (List.replicate 16 7), .out (List.replicate 4 7), .taken,
      .webDone [0x90, 0x00], .setup (packet 0xC1 1 0 1 2) 0, .taken, .setup (packet 0x41 0 0 1 20) 0, .out (List.replicate 8 1), .out (List.replicate 4 2)]))
    (fun s => s.web = .process ∧ s.webSize = 20 ∧ s.buf.take 20 = List.replicate 8 1 ++ List.replicate 4 2 ++ List.replicate 8 7) = true by decide +kernel)
  exact ⟨s, e, of_decide_eq_true h⟩

/-- A command without data takes the buffer and is never executed: the interface accepts no other command, and no other interface gets the buffer. -/
theorem C85_empty_command : ∃ s, run dev St.init (setup ++ [.setup (packet 0x41 0 0 1 0) 0, .taken, .webTimeout 100000, .setup (packet 0x41 0 0 1 5) 0]) = .ok s ∧
    s.web = .recving ∧ s.owner = WebUsb.ownerWeb ∧ s.log.head? = some .stall :=
  ⟨_, rfl, by decide +kernel, by decide +kernel, by decide +kernel⟩

end Verif.Usb.Ex
