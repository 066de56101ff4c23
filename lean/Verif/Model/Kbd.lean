import Verif.Base.Mem
/-
Model of the keyboard interface (`/repo/interfaces/USB/class/kbdhid/kbdhid.c` and the transmit state of
`usbd_kbdhid.c`).
-/
namespace Verif.Kbd

/-- `state` (`kbdhid.c:12-17`). -/
inductive Phase where
  | idle
  | typing
  | down
  | up
  deriving DecidableEq, Repr

/-- `keyboard_report_t` (`usbd_kbdhid.h:22-27`). Simplification: `reserved` and `keycode[1..4]`, which no
code writes except with zero, are left out. -/
structure Report where
  id : Byte
  modifier : Byte
  keycode : Byte
  deriving DecidableEq, Repr

/-- The static variables of `kbdhid.c:12-20`; `buf` is `key_sequence`, `pos` is `key_seq_position` (a
natural number instead of a `uint8_t`; it stays below 34, `C24_safe`). `busy` is
`hid_handle.state == KBDHID_BUSY`. -/
structure St where
  phase : Phase
  buf : Bytes
  pos : Nat
  report : Report
  busy : Bool
  deriving DecidableEq, Repr

/-- State at power-on: zero-initialised statics. -/
def init : St := ⟨.idle, List.replicate 34 0, 0, ⟨0, 0, 0⟩, false⟩

/-- What happens to the keyboard interface.  `tick` is one call of `KBDHID_Loop`; its argument says
whether `device_allow_kbd_touch` and `get_touch_result` report a touch, and if so what
`pass_handle_touch` writes (`none` for a negative result).  `dataIn` is the completion of a transfer
(`USBD_KBDHID_DataIn`), `eject` is `KBDHID_Eject`, `reset` is `USBD_KBDHID_Init`. -/
inductive Ev where
  | tick (touch : Option (Option Bytes))
  | dataIn
  | eject
  | reset
  deriving DecidableEq, Repr

/-- Observations: bytes handed to the USB endpoint, and a touch that starts typing. -/
inductive Out where
  | send (b : Bytes)
  | start (t : Bytes)
  deriving DecidableEq, Repr

/-- `ascii2keycode` (`kbdhid.c:22-77`). `char` is signed or unsigned; values above 127 are in no case
label and no range either way. -/
def ascii2keycode (ch : Byte) : Byte :=
  if 0x31 ≤ ch ∧ ch ≤ 0x39 then 30 + ch - 0x31
  else if ch = 0x30 then 39
  else if 0x61 ≤ ch ∧ ch ≤ 0x7A then 4 + ch - 0x61
  else if 0x41 ≤ ch ∧ ch ≤ 0x5A then (4 + ch - 0x41) ||| 0x80
  else match ch.toNat with
  | 13 => 0x28
  | 32 => 0x2C
  | 33 => 0x1E ||| 0x80
  | 34 => 0x34 ||| 0x80
  | 35 => 0x20 ||| 0x80
  | 36 => 0x21 ||| 0x80
  | 37 => 0x22 ||| 0x80
  | 38 => 0x24 ||| 0x80
  | 39 => 0x34
  | 40 => 0x26 ||| 0x80
  | 41 => 0x27 ||| 0x80
  | 42 => 0x25 ||| 0x80
  | 43 => 0x2E ||| 0x80
  | 44 => 0x36
  | 45 => 0x2D
  | 46 => 0x37
  | 47 => 0x38
  | 58 => 0x33 ||| 0x80
  | 59 => 0x33
  | 60 => 0x36 ||| 0x80
  | 61 => 0x2E
  | 62 => 0x37 ||| 0x80
  | 63 => 0x38 ||| 0x80
  | 64 => 0x1F ||| 0x80
  | 91 => 0x2F
  | 92 => 0x31
  | 93 => 0x30
  | 94 => 0x23 ||| 0x80
  | 95 => 0x2D ||| 0x80
  | 96 => 0x35
  | 123 => 0x2F ||| 0x80
  | 124 => 0x31 ||| 0x80
  | 125 => 0x30 ||| 0x80
  | 126 => 0x35 ||| 0x80
  | _ => 0

/-- The bytes of a report as transmitted, `len` of them. -/
def Report.bytes (r : Report) (len : Nat) : Bytes := [r.id, r.modifier, 0, r.keycode, 0, 0, 0, 0].take len

/-- `USBD_KBDHID_SendReport` (`usbd_kbdhid.c:132-146`) of the static report.  Simplifications: the device
is configured; the waiting loop is not modelled, since every caller checks `USBD_KBDHID_IsIdle` first. -/
def send (s : St) (len : Nat) : St × List Out := ({ s with busy := true }, [.send (s.report.bytes len)])

/-- The key press of `KBDHID_TypeKeySeq` (`kbdhid.c:88-106`) for character `ch`. -/
def press (s : St) (ch : Byte) : St × List Out :=
  if ch = 0x03 then
    let s := { s with report := { s.report with id := 2, modifier := 0xB8 } }
    let (s, o) := send s 2
    ({ s with phase := .down }, o)
  else
    let k := ascii2keycode ch
    let r : Report :=
      if k &&& 0x80 ≠ 0 then { s.report with modifier := 0x02, keycode := k &&& 0x7F, id := 1 }
      else { s.report with modifier := 0, keycode := k, id := 1 }
    let (s, o) := send { s with report := r } 8
    ({ s with phase := .down }, o)

/-- The key release of `KBDHID_TypeKeySeq` (`kbdhid.c:111-122`) for character `ch`. -/
def release (s : St) (ch : Byte) : St × List Out :=
  let r : Report := ⟨if ch = 0x03 then 2 else 1, 0, 0⟩
  let (s, o) := send { s with report := r } (if ch = 0x03 then 2 else 8)
  ({ s with pos := s.pos + 1, phase := .up }, o)

/-- `KBDHID_TypeKeySeq` (`kbdhid.c:79-126`). -/
def typeKeySeq (s : St) : C (St × List Out) :=
  match s.phase with
  | .idle => return (s, [])
  | .typing | .up => do
    let ch ← rd s.buf s.pos
    if ch = 0 then return ({ s with phase := .idle }, [])
    else if s.busy then return (s, [])
    else return press s ch
  | .down =>
    if s.busy then return (s, [])
    else do
      let ch ← rd s.buf s.pos
      return release s ch

/-- The start of typing in `KBDHID_Loop` (`kbdhid.c:144-154`) when the touch slot produced `t`. -/
def begin (s : St) (t : Bytes) : C (St × List Out) := do
  let b ← wrRange s.buf 0 t
  let s := { s with buf := b }
  if t.length = 0 then return (s, [])
  else
    let b ← wr s.buf t.length 0
    return ({ s with buf := b, pos := 0, phase := .typing }, [.start t])

/-- One event (`kbdhid.c:128-160`, `usbd_kbdhid.c:70-79,121-124`). -/
def step (s : St) : Ev → C (St × List Out)
  | .tick touch =>
    match s.phase, touch with
    | .idle, some none => return (s, [])
    | .idle, some (some t) => begin s t
    | _, _ => typeKeySeq s
  | .dataIn => return ({ s with busy := false }, [])
  | .eject => do
    let b ← wr s.buf 0 0x03
    let b ← wr b 1 0
    return ({ s with buf := b, pos := 0, phase := .typing }, [])
  | .reset => return ({ s with busy := false, report := ⟨0, 0, 0⟩, phase := .idle }, [])

/-- A history. -/
def run (s : St) : List Ev → C (St × List Out)
  | [] => return (s, [])
  | e :: es => do
    let (s, o) ← step s e
    let (s, o') ← run s es
    return (s, o ++ o')

end Verif.Kbd
