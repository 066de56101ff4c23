import Verif.Spec.Pgp
/-
The OpenPGP PINs as the host sees them: a small machine that says what every command answers and what it changes.
-/
namespace Verif.Spec.Pgp
open Verif.Pgp

/-- A PIN or the resetting code: its value, the tries that are left, and whether it has been shown in this session. -/
structure Secret where
  value : Bytes
  tries : Nat
  shown : Bool
  deriving DecidableEq, Repr

/-- PW1 (user), PW3 (administrator), the resetting code, whether the applet is terminated, and whether the device is
switched on. Without a resetting code its value is empty. -/
structure Mach where
  pw1 : Secret
  pw3 : Secret
  rc : Secret
  ended : Bool
  powered : Bool
  deriving DecidableEq, Repr

/-- As it leaves the factory and after a reset: PW1 123456, PW3 12345678, no resetting code, three tries each. -/
def Mach.new : Mach := ⟨⟨pw1Default, 3, false⟩, ⟨pw3Default, 3, false⟩, ⟨[], 3, false⟩, false, true⟩

/-- A value is shown. The answer, if it is refused: 6983 if there are no more tries, else 6982. And what is left. -/
def Secret.present (s : Secret) (value : Bytes) : Option Nat × Secret :=
  if s.tries = 0 then (some 0x6983, { s with shown := false })
  else if value = s.value then (none, { s with tries := 3, shown := true })
  else if s.tries = 1 then (some 0x6983, { s with tries := 0, shown := false })
  else (some 0x6982, { s with tries := s.tries - 1, shown := false })

/-- The secret is replaced. -/
def Secret.put (s : Secret) (value : Bytes) : Secret := { s with value := value, tries := 3, shown := false }

/-- VERIFY for one PIN, which has at least `lo` bytes. -/
def Secret.verify (s : Secret) (lo : Nat) (p1 : Byte) (d : Bytes) : Nat × Secret :=
  if p1 = 0xFF then (0x9000, { s with shown := false })
  else if d = [] then (if s.shown then 0x9000 else 0x63C0 + s.tries, s)
  else if d.length < lo ∨ 64 < d.length then (0x6700, { s with shown := false })
  else match s.present d with
    | (none, s) => (0x9000, s)
    | (some sw, s) => (sw, s)

/-- VERIFY. -/
def Mach.verify (m : Mach) (p1 p2 : Byte) (d : Bytes) : Nat × Mach :=
  if p1 ≠ 0 ∧ p1 ≠ 0xFF then (0x6A86, m)
  else if p2 = 0x81 ∨ p2 = 0x82 then
    let (sw, s) := m.pw1.verify 6 p1 d
    (sw, { m with pw1 := s })
  else if p2 = 0x83 then
    let (sw, s) := m.pw3.verify 8 p1 d
    (sw, { m with pw3 := s })
  else (0x6A86, m)

/-- CHANGE REFERENCE DATA for one PIN: the old value and the new one. -/
def Secret.change (s : Secret) (lo : Nat) (d : Bytes) : Nat × Secret :=
  if d.length < lo then (0x6700, { s with shown := false })
  else match s.present (d.take s.value.length) with
    | (some sw, s') => (sw, s')
    | (none, s') =>
      if (d.drop s.value.length).length < lo ∨ 64 < (d.drop s.value.length).length then (0x6700, s')
      else (0x9000, s'.put (d.drop s.value.length))

/-- CHANGE REFERENCE DATA. -/
def Mach.change (m : Mach) (p1 p2 : Byte) (d : Bytes) : Nat × Mach :=
  if p1 ≠ 0 then (0x6A86, m)
  else if p2 = 0x81 then
    let (sw, s) := m.pw1.change 6 d
    (sw, { m with pw1 := s })
  else if p2 = 0x83 then
    let (sw, s) := m.pw3.change 8 d
    (sw, { m with pw3 := s })
  else (0x6A86, m)

/-- RESET RETRY COUNTER: with the resetting code and the new PW1 (P1 = 0), or with the new PW1 after PW3 (P1 = 2). -/
def Mach.unblock (m : Mach) (p1 p2 : Byte) (d : Bytes) : Nat × Mach :=
  if p1 ≠ 0 ∧ p1 ≠ 2 ∨ p2 ≠ 0x81 then (0x6A86, m)
  else if p1 = 0 then
    if m.rc.value = [] then (0x6982, m)
    else if d.length < 8 then (0x6700, { m with rc := { m.rc with shown := false } })
    else match m.rc.present (d.take m.rc.value.length) with
      | (some sw, s) => (sw, { m with rc := s })
      | (none, s) =>
        if (d.drop m.rc.value.length).length < 6 ∨ 64 < (d.drop m.rc.value.length).length then (0x6700, { m with rc := s })
        else (0x9000, { m with rc := s, pw1 := m.pw1.put (d.drop m.rc.value.length) })
  else if m.pw3.shown = false then (0x6982, m)
  else if d.length < 6 ∨ 64 < d.length then (0x6700, m)
  else (0x9000, { m with pw1 := m.pw1.put d })

/-- PUT DATA of the resetting code. -/
def Mach.putRc (m : Mach) (d : Bytes) : Nat × Mach :=
  if m.pw3.shown = false then (0x6982, m)
  else if 0 < d.length ∧ d.length < 8 ∨ 64 < d.length then (0x6700, m)
  else (0x9000, { m with rc := m.rc.put d })

/-- TERMINATE: after PW3, or when PW3 is blocked. -/
def Mach.terminate (m : Mach) (p1 p2 : Byte) : Nat × Mach :=
  if p1 ≠ 0 ∨ p2 ≠ 0 then (0x6A86, m)
  else if m.pw3.tries ≠ 0 ∧ m.pw3.shown = false then (0x6982, m)
  else (0x9000, { m with ended := true })

/-- ACTIVATE: only after TERMINATE. -/
def Mach.activate (m : Mach) (p1 p2 : Byte) : Nat × Mach :=
  if m.ended = false then (0x6985, m)
  else if p1 ≠ 0 ∨ p2 ≠ 0 then (0x6A86, m)
  else (0x9000, .new)

/-- A command: the status word, where it is settled by the machine, and the machine after it. -/
def Mach.command (m : Mach) (c : Apdu.Capdu) : Option Nat × Mach :=
  if c.cla ≠ 0 then (some 0x6E00, m)
  else if c.ins = 0xCC ∨ c.ins = 0xA4 then (none, m)
  else if c.ins = 0x44 then ((m.activate c.p1 c.p2).map some id)
  else if m.ended then (some 0x6285, m)
  else if c.ins = 0x20 then ((m.verify c.p1 c.p2 c.data).map some id)
  else if c.ins = 0x24 then ((m.change c.p1 c.p2 c.data).map some id)
  else if c.ins = 0x2C then ((m.unblock c.p1 c.p2 c.data).map some id)
  else if c.ins = 0xDA ∧ c.p1 = 0 ∧ c.p2 = 0xD3 then ((m.putRc c.data).map some id)
  else if c.ins = 0xE6 then ((m.terminate c.p1 c.p2).map some id)
  else (none, m)

/-- What a command may leave when power fails while it is executed: nothing done; all done; or, of a command that would
be answered 9000, the tries restored because the right value was shown, or the new value in place and its tries not
yet restored. -/
def Mach.torn (m : Mach) (c : Apdu.Capdu) (m' : Mach) : Prop :=
  m' = m ∨ m' = (m.command c).2 ∨
  c.cla = 0 ∧ c.ins = 0x24 ∧ c.p2 = 0x81 ∧ (m.command c).1 = some 0x9000 ∧ m' = { m with pw1 := { m.pw1 with tries := 3 } } ∨
  c.cla = 0 ∧ c.ins = 0x24 ∧ c.p2 = 0x83 ∧ (m.command c).1 = some 0x9000 ∧ m' = { m with pw3 := { m.pw3 with tries := 3 } } ∨
  c.cla = 0 ∧ c.ins = 0x2C ∧ c.p1 = 0 ∧ (m.command c).1 = some 0x9000 ∧ m' = { m with rc := { m.rc with tries := 3 } } ∨
  c.cla = 0 ∧ c.ins = 0x2C ∧ (m.command c).1 = some 0x9000 ∧
    m' = { (m.command c).2 with pw1 := { (m.command c).2.pw1 with tries := m.pw1.tries } } ∨
  c.cla = 0 ∧ c.ins = 0xDA ∧ (m.command c).1 = some 0x9000 ∧
    m' = { (m.command c).2 with rc := { (m.command c).2.rc with tries := m.rc.tries } }

/-- The session is over. -/
def Mach.closed (m : Mach) : Mach :=
  { m with pw1 := { m.pw1 with shown := false }, pw3 := { m.pw3 with shown := false }, rc := { m.rc with shown := false } }

def Mach.off (m : Mach) : Mach := { m.closed with powered := false }

/-- GET DATA of the PW status bytes shows the tries that are left, 0 if there is no resetting code. -/
def Mach.status (m : Mach) (c : Apdu.Capdu) (a : Reply) : Prop :=
  c.ins = 0xCA → c.p1 = 0 → c.p2 = 0xC4 → ∀ d, a = .resp d 0x9000 →
    ∃ s, d.map (·.toNat) = [s, 64, 64, 64, m.pw1.tries, if m.rc.value = [] then 0 else m.rc.tries, m.pw3.tries]

/-- One operation of a history. -/
inductive Mach.Next : Mach → Op → Out → Mach → Prop
  | answer {m m' : Mach} {i : In} {sw : Nat} (hp : m.powered = true) (h : m.command i.c = (some sw, m')) :
      Next m (.apdu i) (.reply (.sw sw)) m'
  | other {m m' : Mach} {i : In} {a : Reply} (hp : m.powered = true) (h : m.command i.c = (none, m')) (hs : m.status i.c a) :
      Next m (.apdu i) (.reply a) m'
  | cut {m m' : Mach} {i : In} (hp : m.powered = true) (h : m.torn i.c m') : Next m (.apdu i) .cut m'.off
  | deselect {m : Mach} (hp : m.powered = true) : Next m .deselect .none m.closed
  | factory {m : Mach} (hp : m.powered = true) : Next m .factory (.reply (.sw 0x9000)) .new
  | boot {m : Mach} : Next m .boot (.reply (.sw 0x9000)) { m.closed with powered := true }
  | bootCut {m : Mach} : Next m .boot .cut m.off
  | off {m : Mach} {op : Op} (hp : m.powered = false) (h : op ≠ .boot) : Next m op .none m

/-- A history that the machine allows, oldest first: the operations with what was observed. -/
inductive Mach.Trace : Mach → List (Op × Out) → Mach → Prop
  | nil {m : Mach} : Trace m [] m
  | cons {m m' m'' : Mach} {op : Op} {o : Out} {l : List (Op × Out)} (h : Next m op o m') (ht : Trace m' l m'') :
      Trace m ((op, o) :: l) m''

/-- The operations that put everything back to the factory settings. -/
def Resets (op : Op) : Prop := op = .factory ∨ ∃ i, op = .apdu i ∧ i.c.ins = 0x44

/-- At most 255 bytes, and the byte on the stack that the code reads without having written it is not zero. (Lengths are
taken modulo 256; a zero there turns 6700 into 6983.) -/
def Plain (op : Op) : Prop :=
  ∀ i, op = .apdu i → i.junk ≠ 0 ∧ (i.c.ins = 0x20 ∨ i.c.ins = 0x24 ∨ i.c.ins = 0x2C → i.c.data.length ≤ 255)

/-- What the host sees of a history, oldest first. -/
def observed (l : List Entry) : List (Op × Out) := l.reverse.map (·.2)

end Verif.Spec.Pgp
