import Mathlib.Tactic.Cases
/-
The light and the touches for the keyboard (`/repo/src/device.c:9-40,120-189`, `/repo/include/device.h:111-120`).
On the device `device_update_led` is called from a periodic interrupt. `step` takes the other functions as atomic;
`startIrq` and `stopIrq` are the same functions with interrupts between their statements.
-/
namespace Verif.Led

/-- The static variables of `device.c:9-12`, the setting `led_normally_on` and the milliseconds since power-on.
`blink_timeout`, `last_blink` and `blink_interval` are `uint32_t`. -/
structure St where
  now : Nat
  last : Nat
  timeout : Nat
  interval : Nat
  on : Bool
  cfg : Bool
  touched : Bool
  nfc : Bool
deriving DecidableEq, Repr

/-- `device_get_tick`: a `uint32_t`. -/
def St.tick (s : St) : Nat := s.now % 2 ^ 32

/-- `device_is_blinking` (`device.c:17`). -/
def isBlinking (s : St) : Bool := s.timeout != 0

/-- `toggle_led` (`device.c:142-150`). -/
def toggle (s : St) : St := { s with on := !s.on }

/-- `stop_blinking` (`device.c:174-183`). -/
def stop (s : St) : St := { s with timeout := 0, on := s.cfg }

/-- `device_update_led` (`device.c:152-160`). -/
def update (s : St) : St :=
  if s.tick > s.timeout then stop s
  else if isBlinking s && decide (s.tick ≥ s.last) && decide (s.tick - s.last ≥ s.interval) then
    toggle { s with last := s.tick }
  else s

/-- `start_blinking_interval` (`device.c:162-172`); `sec` is a `uint8_t`. -/
def start (s : St) (sec : UInt8) (interval : UInt32) : St :=
  if isBlinking s then s
  else
    let s := { s with last := s.tick, interval := interval.toNat }
    toggle (if sec = 0 then { s with timeout := 2 ^ 32 - 1 }
      else { s with timeout := (s.last + sec.toNat * 1000) % 2 ^ 32 })

/-- `start_blinking` and `start_quick_blinking` (`device.h:112-117`). -/
def ask (s : St) (sec : UInt8) (quick : Bool) : St := if s.nfc then s else start s sec (if quick then 25 else 200)

/-- `device_allow_kbd_touch` (`device.c:26-38`), with `TOUCH_EXPIRE_TIME` and `TOUCH_AFTER_PWRON`
(`/repo/include/common.h:12-13`); the subtraction is modulo 2³². -/
def allowKbd (s : St) : Bool :=
  !isBlinking s && decide (s.tick > 1500) && decide ((s.tick + 2 ^ 32 - 1000) % 2 ^ 32 > s.last) && s.touched

/-- What can happen: time passes; the periodic interrupt; a function of the device asks for light (`ask`), the host asks
the device to wink (`start`, `/repo/applets/ctap/ctap.c:2297-2300`); the light is no longer needed; the owner changes the
setting (`/repo/applets/admin/admin.c:119-136`); the sensor reports; the field appears or disappears. -/
inductive Op where
  | pass (ms : Nat)
  | update
  | start (sec : UInt8) (interval : UInt32)
  | ask (sec : UInt8) (quick : Bool)
  | stop
  | config (normallyOn : Bool)
  | touch (b : Bool)
  | nfc (b : Bool)

/-- One event. -/
def step (s : St) : Op → St
  | .pass ms => { s with now := s.now + ms }
  | .update => Led.update s
  | .start sec i => Led.start s sec i
  | .ask sec q => Led.ask s sec q
  | .stop => Led.stop s
  | .config b => Led.stop { s with cfg := b }
  | .touch b => { s with touched := b }
  | .nfc b => { s with nfc := b }

/-- `device_init` (`device.c:185-189`). -/
def init (cfg : Bool) : St := ⟨0, 0, 0, 0, cfg, cfg, false, false⟩

/-- A history. -/
def run (s : St) (h : List Op) : St := h.foldl step s

/-- Interrupts, after so many milliseconds each. -/
def irq (ds : List Nat) (s : St) : St := ds.foldl (fun s d => update { s with now := s.now + d }) s

/-- `start_blinking_interval` (`device.c:162-172`), statement by statement, with interrupts before each of them. In
`toggle_led` the state that an interrupt sees is that before or after. -/
def startIrq (s : St) (sec : UInt8) (interval : UInt32) (d1 d2 d3 d4 d5 : List Nat) : St :=
  if isBlinking s then s
  else
    let s := irq d1 s
    let s := { s with last := s.tick }
    let s := irq d2 s
    let s := { s with interval := interval.toNat }
    let s := irq d3 s
    let s := if sec = 0 then { s with timeout := 2 ^ 32 - 1 } else { s with timeout := (s.last + sec.toNat * 1000) % 2 ^ 32 }
    let s := irq d4 s
    irq d5 (toggle s)

/-- `stop_blinking` (`device.c:174-183`) with interrupts before each statement. -/
def stopIrq (s : St) (d1 d2 : List Nat) : St :=
  let s := { s with timeout := 0 }
  let s := irq d1 s
  irq d2 { s with on := s.cfg }

end Verif.Led
