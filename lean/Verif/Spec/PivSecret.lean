import Verif.Spec.Piv
/-
The PIV PIN and PUK as the host sees them: a small machine that says what every command answers and what it changes.
-/
namespace Verif.Spec.Piv
open Verif.Piv

/-- The secrets, the tries that are left for each, whether the PIN has been shown in this session, and whether the device
is switched on. -/
structure Mach where
  pin : Bytes
  puk : Bytes
  pinTries : Nat
  pukTries : Nat
  shown : Bool
  powered : Bool
  deriving DecidableEq, Repr

/-- As it leaves the factory and after a reset: PIN 123456, PUK 12345678, three tries each. -/
def Mach.new : Mach := ⟨factoryPin, factoryPuk, 3, 3, false, true⟩

/-- A value is shown for a secret with `n` tries left. The answer, if it is refused: 6983 if there are no more tries, else
63Cx with the number of tries left. And the tries left then. -/
def present (n : Nat) (secret value : Bytes) : Option Nat × Nat :=
  if n = 0 then (some 0x6983, 0)
  else if value = secret then (none, 3)
  else if n = 1 then (some 0x6983, 0)
  else (some (0x63C0 + (n - 1)), n - 1)

/-- VERIFY. -/
def Mach.verify (m : Mach) (p1 p2 : Byte) (d : Bytes) : Nat × Mach :=
  if p1 ≠ 0 ∧ p1 ≠ 0xFF then (0x6A86, m)
  else if p2 ≠ 0x80 then (0x6A88, m)
  else if p1 = 0xFF then if d = [] then (0x9000, { m with shown := false }) else (0x6700, m)
  else if d = [] then (if m.shown then 0x9000 else 0x63C0 + m.pinTries, m)
  else if d.length ≠ 8 then (0x6700, m)
  else match present m.pinTries m.pin d with
    | (none, n) => (0x9000, { m with pinTries := n, shown := true })
    | (some sw, n) => (sw, { m with pinTries := n, shown := false })

/-- CHANGE REFERENCE DATA: the old value and the new one. -/
def Mach.change (m : Mach) (p1 p2 : Byte) (d : Bytes) : Nat × Mach :=
  if p1 ≠ 0 then (0x6A86, m)
  else if p2 ≠ 0x80 ∧ p2 ≠ 0x81 then (0x6A88, m)
  else if d.length ≠ 16 then (0x6700, m)
  else if p2 = 0x80 then match present m.pinTries m.pin (d.take 8) with
    | (none, n) => (0x9000, { m with pin := d.drop 8, pinTries := n, shown := false })
    | (some sw, n) => (sw, { m with pinTries := n, shown := false })
  else match present m.pukTries m.puk (d.take 8) with
    | (none, n) => (0x9000, { m with puk := d.drop 8, pukTries := n })
    | (some sw, n) => (sw, { m with pukTries := n })

/-- RESET RETRY COUNTER: the PUK and the new PIN. -/
def Mach.unblock (m : Mach) (p1 p2 : Byte) (d : Bytes) : Nat × Mach :=
  if p1 ≠ 0 then (0x6A86, m)
  else if p2 ≠ 0x80 then (0x6A88, m)
  else if d.length ≠ 16 then (0x6700, m)
  else match present m.pukTries m.puk (d.take 8) with
    | (none, n) => (0x9000, { m with pin := d.drop 8, pinTries := 3, pukTries := n, shown := false })
    | (some sw, n) => (sw, { m with pukTries := n })

/-- RESET: only when both are blocked. -/
def Mach.reset (m : Mach) (p1 p2 : Byte) (d : Bytes) : Nat × Mach :=
  if p1 ≠ 0 ∨ p2 ≠ 0 then (0x6A86, m)
  else if d ≠ [] then (0x6700, m)
  else if m.pinTries ≠ 0 ∨ m.pukTries ≠ 0 then (0x6982, m)
  else (0x9000, .new)

/-- A command: the status word, where it is settled by the machine, and the machine after it. -/
def Mach.command (m : Mach) (c : Apdu.Capdu) : Option Nat × Mach :=
  if c.cla ≠ 0 ∧ ¬(c.cla = 0x10 ∧ c.ins = 0xDB) then (some 0x6E00, m)
  else if c.ins = 0xA4 then
    if c.p1 ≠ 4 ∨ c.p2 ≠ 0 then (some 0x6A86, m) else (none, { m with shown := false })
  else if c.ins = 0x20 then ((m.verify c.p1 c.p2 c.data).map some id)
  else if c.ins = 0x24 then ((m.change c.p1 c.p2 c.data).map some id)
  else if c.ins = 0x2C then ((m.unblock c.p1 c.p2 c.data).map some id)
  else if c.ins = 0xFB then ((m.reset c.p1 c.p2 c.data).map some id)
  else (none, m)

/-- What a command may leave when power fails while it is executed: nothing done; the tries restored, because the right
value was shown; the new value in place and its tries not yet restored; all done. -/
def Mach.torn (m : Mach) (c : Apdu.Capdu) (m' : Mach) : Prop :=
  m' = m ∨ m' = (m.command c).2 ∨
  c.cla = 0 ∧ c.ins = 0x24 ∧ c.p2 = 0x80 ∧ (m.command c).1 = some 0x9000 ∧ m' = { m with pinTries := 3 } ∨
  c.cla = 0 ∧ c.ins = 0x24 ∧ c.p2 = 0x81 ∧ (m.command c).1 = some 0x9000 ∧ m' = { m with pukTries := 3 } ∨
  c.cla = 0 ∧ c.ins = 0x2C ∧ (m.command c).1 = some 0x9000 ∧ m' = { m with pukTries := 3 } ∨
  c.cla = 0 ∧ c.ins = 0x2C ∧ (m.command c).1 = some 0x9000 ∧ m' = { m with pukTries := 3, pin := c.data.drop 8 }

def Mach.off (m : Mach) : Mach := { m with shown := false, powered := false }

/-- One operation of a history. -/
inductive Mach.Next : Mach → Op → Out → Mach → Prop
  | answer {m m' : Mach} {i : In} {sw : Nat} (hp : m.powered = true) (h : m.command i.c = (some sw, m')) :
      Next m (.apdu i) (.reply (.sw sw)) m'
  | other {m m' : Mach} {i : In} {a : Reply} (hp : m.powered = true) (h : m.command i.c = (none, m')) :
      Next m (.apdu i) (.reply a) m'
  | cut {m m' : Mach} {i : In} (hp : m.powered = true) (h : m.torn i.c m') : Next m (.apdu i) .cut m'.off
  | deselect {m : Mach} (hp : m.powered = true) : Next m .deselect .none { m with shown := false }
  | factory {m : Mach} {rnd : Nat → Byte} {a : Reply} (hp : m.powered = true) : Next m (.factory rnd) (.reply a) .new
  | boot {m : Mach} {rnd : Nat → Byte} : Next m (.boot rnd) (.reply (.sw 0x9000)) { m with shown := false, powered := true }
  | bootCut {m : Mach} {rnd : Nat → Byte} : Next m (.boot rnd) .cut m.off
  | off {m : Mach} {op : Op} (hp : m.powered = false) (h : ∀ rnd, op ≠ .boot rnd) : Next m op .none m

/-- A history that the machine allows, oldest first: the operations with what was observed. -/
inductive Mach.Trace : Mach → List (Op × Out) → Mach → Prop
  | nil {m : Mach} : Trace m [] m
  | cons {m m' m'' : Mach} {op : Op} {o : Out} {l : List (Op × Out)} (h : Next m op o m') (ht : Trace m' l m'') :
      Trace m ((op, o) :: l) m''

/-- The operations that put everything back to the factory settings. -/
def Resets (op : Op) : Prop := (∃ rnd, op = .factory rnd) ∨ ∃ i, op = .apdu i ∧ i.c.ins = 0xFB

/-- What the host sees of a history, oldest first. -/
def observed (l : List Entry) : List (Op × Out) := l.reverse.map (·.2)

end Verif.Spec.Piv
