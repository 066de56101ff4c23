import Verif.Lemmas.CtapPinMach
import Verif.Lemmas.CtapCpSize
import Verif.Spec.CtapToy
import Verif.Spec.CtapHmac
/-
The PIN of the FIDO applet behaves as a small machine: property C107.
-/
namespace Verif.Props
open Verif.Ctap Verif.Ctap.Parse Verif.Spec.FidoPin

/-- C107. Whatever is done with an installed device in the state of machine `m`, in any order, with power failing at any
file-system call of any operation: what is seen is what the machine allows, answer by answer, and afterwards the device
is in the state of the machine.  The cipher keeps lengths, SHA-256 has 32 bytes; calls of the file system do not fail
with power on. -/
theorem C107_pin_machine (x : Ext) (hs : x.Sized) (hl : x.Lawful) (m : Mach) (s : St) (ops : List (Op × Env))
    (hops : ∀ p ∈ ops, noFail p.2 ∧ Whole p.1) (h : Shows m s) :
    ∃ m', m.Trace x ((ops.map (·.1)).zip (run x s ops).2) m' ∧ Shows m' (run x s ops).1 :=
  run_trace hs hl.len ops m s hops h

/-- C107. An erased device, after attempts to power it that were cut short, and one that was not: no PIN is set, and the
tries cannot be read. -/
theorem C107_first_boot (x : Ext) (cuts : List (In × Env)) (i : In) (env : Env)
    (hc : ∀ p ∈ cuts, noFail p.2) (he : noFail env)
    (hcut : ∀ o ∈ (run x St.blank (cuts.map fun p => (.powerOn p.1, p.2))).2, o = .cut)
    (hd : (step x (run x St.blank (cuts.map fun p => (.powerOn p.1, p.2))).1 (.powerOn i) env).2 ≠ .cut) :
    Shows ⟨none, none, 3, 1⟩ (step x (run x St.blank (cuts.map fun p => (.powerOn p.1, p.2))).1 (.powerOn i) env).1 := by
  have key : ∀ (cuts : List (In × Env)) (s : St), Raw s.flash → (∀ p ∈ cuts, noFail p.2) →
      (∀ o ∈ (run x s (cuts.map fun p => (.powerOn p.1, p.2))).2, o = .cut) →
      Raw (run x s (cuts.map fun p => (.powerOn p.1, p.2))).1.flash := by
    intro cuts
    induction cuts with
    | nil => exact fun s h _ _ => h
    | cons p rest ih =>
      intro s h hc ho
      apply ih (step x s (.powerOn p.1) p.2).1
      · rcases step_first (x := x) (i := p.1) (hc p List.mem_cons_self) h with h1 | h1
        · have := ho (step x s (.powerOn p.1) p.2).2 List.mem_cons_self
          rw [h1.1] at this
          cases this
        · exact h1.2
      · exact fun q hq => hc q (List.mem_cons_of_mem _ hq)
      · exact fun o h => ho o (List.mem_cons_of_mem _ h)
  have hraw := key cuts St.blank ⟨rfl, Or.inl rfl, rfl⟩ hc hcut
  rcases step_first (x := x) (i := i) he hraw with h1 | h1
  · exact h1.2
  · exact absurd h1.1 hd

/-- C107. Showing the right PIN and choosing an unacceptable one costs a try: after changePIN with the current PIN and a
new PIN of less than 4 or more than 63 bytes there is one try less. -/
theorem C107_unacceptable_costs (x : Ext) (m : Mach) (q : CpReq) (z : Bytes) (k : Byte)
    (hg : m.gate = none) (hk : m.tries = some k) (hz : decapsulate x m.ka q.key q.proto = some z)
    (ha : Authenticates x (z.take 32) (newField q ++ hashField q) q.pinAuth q.proto)
    (hp : shownPin x z q = m.pin) (hn : newPin x z q = none) :
    m.changePin x q = (.err 0x37, { m with tries := some (k - 1), left := 3 }) := by
  unfold Mach.changePin
  rw [hg, hz]
  dsimp only
  rw [if_neg (fun h => h ha), if_neg (fun h => h hp), hn]
  unfold Mach.charge
  rw [hk]
  rfl

/-- C107. Requests that come from the parser are whole. -/
theorem C107_parsed_whole (x : Ext) (i : In) (v : Cbor) (q : CpReq) (h : parseCp x v = .ok q) :
    Whole (.cbor i (.cp (.ok q))) := by
  have := parseCp_sizes h
  constructor
  · intro _
    rw [this.1]
    split <;> omega
  · intro _
    rw [this.2]
    split <;> omega

/-- The device: changePIN with the current PIN and a new one of one byte is refused, and costs a try. -/
example : (run Toy.ext Toy.withPin1 (Toy.hist [(20000, Toy.changePin Toy.pin1 [1])])).2 = [.err 0x37] ∧
    rdCert (·.pinCtr) (run Toy.ext Toy.withPin1 (Toy.hist [(20000, Toy.changePin Toy.pin1 [1])])).1.flash = some 7 := by
  decide +kernel

/-- A PIN that is set, in a text padded to 64 bytes. -/
example : pinOf (Toy.padded [0x31, 0x32, 0x33, 0x34]) = some [0x31, 0x32, 0x33, 0x34] := by decide +kernel
/-- Too short, and a text without padding. -/
example : pinOf (Toy.padded [0x31, 0x32, 0x33]) = none ∧ pinOf (List.replicate 64 0x31) = none := by decide +kernel
/-- 63 bytes are accepted. -/
example : (pinOf (Toy.padded (List.replicate 63 0x31))).isSome = true := by decide +kernel

/-- The hypotheses of C107: a device from production is in the state of a machine with no PIN. -/
example : Shows ⟨none, none, 3, 1⟩ Toy.produced := by
  refine ⟨?_, ?_, ?_, ?_, ?_, ?_⟩
  · decide +kernel
  · decide +kernel
  · exact fun _ h => by cases h
  · decide +kernel
  · decide +kernel
  · decide +kernel

/-- And one with a PIN is in the state of a machine with that PIN. -/
example : Shows ⟨some (digest Toy.ext Toy.pin1), some 8, 3, 1⟩ Toy.withPin1 := by
  refine ⟨?_, ?_, ?_, ?_, ?_, ?_⟩
  · decide +kernel
  · decide +kernel
  · intro p hp
    cases hp
    decide +kernel
  · decide +kernel
  · decide +kernel
  · decide +kernel

/-- The requests of the examples are whole. -/
example : Whole (.cbor (Toy.env 0) (Toy.setPin Toy.pin1)) ∧ Whole (.cbor (Toy.env 0) (Toy.changePin Toy.pin1 Toy.pin2)) ∧
    Whole (.cbor (Toy.env 0) (Toy.getToken Toy.pin1 3 none)) := by
  refine ⟨⟨?_, ?_⟩, ⟨?_, ?_⟩, ⟨?_, ?_⟩⟩ <;> decide +kernel

/-- The machine: three wrong PINs block until power is cycled; the tries on flash go on counting. -/
def shots (m : Mach) : List CpReq → List Out × Mach
  | [] => ([], m)
  | q :: l =>
    let (o, m1) := m.clientPin Toy.ext (Toy.env 0) q
    let (os, m2) := shots m1 l
    (o :: os, m2)

/-- getPinToken with a PIN. -/
def showPin (p : Bytes) : CpReq :=
  { sub := 5, proto := 1, key := [5], pinAuth := [], newPinEnc := [], pinHashEnc := Toy.pinHash p, perms := 0, rp := none }

example : let m : Mach := ⟨some (digest Toy.ext Toy.pin1), some 8, 3, 1⟩
    (shots m [showPin Toy.pin2, showPin Toy.pin2, showPin Toy.pin2, showPin Toy.pin1]).1
      = [.err 0x31, .err 0x31, .err 0x34, .err 0x34] ∧
    (shots m [showPin Toy.pin2, showPin Toy.pin2, showPin Toy.pin2, showPin Toy.pin1]).2.tries = some 5 := by
  decide +kernel

/-- The last try on flash: blocked for good. -/
example : let m : Mach := ⟨some (digest Toy.ext Toy.pin1), some 1, 3, 1⟩
    (shots m [showPin Toy.pin2, showPin Toy.pin1]).1 = [.err 0x32, .err 0x32] := by
  decide +kernel

/-- The hypotheses of `C107_first_boot`: power fails in the first boot of an erased device. -/
example : (run Toy.ext St.blank [(.powerOn (Toy.env 0), Toy.cutAt 6)]).2 = [.cut] ∧
    (step Toy.ext (run Toy.ext St.blank [(.powerOn (Toy.env 0), Toy.cutAt 6)]).1 (.powerOn (Toy.env 0)) Toy.fine).2 = .done := by
  decide +kernel

end Verif.Props
