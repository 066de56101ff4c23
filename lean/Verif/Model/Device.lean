import Verif.Base.Storage
/-
Model of the user-presence tests (`/repo/src/device.c`).

The machine takes one step per loop condition or loop body, so that interrupts (the touch sensor, the clock) and nested
processing of other commands can happen anywhere in between. The touch sensor itself and its timer are platform code:
they call `set_touch_result`. Simplifications: reading the touch flag and resetting it is one step; the LED is left
out.
-/
namespace Verif.Device

/-- A touch: the number of touches before it, whether it was short (`TOUCH_SHORT`), and when it was registered
(milliseconds since power-on; the clock read by the device is this modulo 2^32). -/
structure Touch where
  id : Nat
  short : Bool
  time : Nat
  deriving DecidableEq, Repr

/-- `WAIT_ENTRY_CCID`, `WAIT_ENTRY_CTAPHID` (`/repo/include/device.h:16-17`). -/
inductive Entry where
  | ccid | hid
  deriving DecidableEq, Repr

/-- What is observed. -/
inductive Ev where
  /-- the sensor registers a touch, or drops an old one -/
  | pressed (t : Touch)
  | expired
  /-- `wait_for_user_presence` starts, is refused, or returns -/
  | began (e : Entry)
  | denied
  | ok (t : Touch)
  | cancelled
  | timeout
  | keepAlive
  /-- an applet without waiting, or the keyboard, takes the touch (`u2f.c:21-22`, `kbdhid.c:143-146`) -/
  | taken (t : Touch)
  /-- the five-touch test starts, accepts a touch, or returns; `strongOk` lists the touches of the five rounds,
  newest first -/
  | strongBegan
  | strongSaw (t : Touch)
  | strongOk (rounds : List (List Touch))
  | strongFail
  deriving DecidableEq, Repr

/-- The local variables of `wait_for_user_presence` (`device.c:49-67`); `body` is set between the loop condition and
the end of the loop body. -/
structure Wait where
  entry : Entry
  start : Nat
  last : Nat
  body : Bool
  deriving DecidableEq, Repr

/-- The local variables of `strong_user_presence_test` (`device.c:111-126`): the touches of the finished rounds, those
of the current one, and `begin`; `polled` is set between reading the touch flag and the loop condition. -/
structure Strong where
  rounds : List (List Touch)
  cur : List Touch
  start : Nat
  polled : Bool
  deriving DecidableEq, Repr

/-- `touch_result`, `wait_status` (`device.c:10-15`), the clock, and the calls in progress. The five-touch test can run
inside of a wait (through `CCID_Loop`), but nothing runs inside of the five-touch test. -/
structure St where
  now : Nat
  count : Nat
  touch : Option Touch
  wait : Option Wait
  strong : Option Strong
  log : List (Nat × Ev)
  deriving DecidableEq, Repr

/-- `device_init` (`device.c:185-189`) and the static initialisers. -/
def St.init : St := ⟨0, 0, none, none, none, []⟩

/-- `device_get_tick` is a `uint32_t`. -/
def St.tick (s : St) : Nat := s.now % 2 ^ 32

/-- The subtraction of two `uint32_t`. -/
def since (a b : Nat) : Nat := (a + 2 ^ 32 - b) % 2 ^ 32

/-- Record an event. -/
def St.say (s : St) (e : Ev) : St := { s with log := (s.now, e) :: s.log }

/-- What happens next. -/
inductive Op where
  | tick (d : Nat)
  | press (short : Bool)
  | expire
  | take
  | wait (e : Entry)
  /-- the loop condition (`device.c:68`) -/
  | check
  /-- the loop body after the nested processing, which reported `LOOP_CANCEL` or not (`device.c:75-91`) -/
  | body (cancel : Bool)
  | strong
  /-- reading the touch flag in the five-touch test (`device.c:117-123`), the loop condition (`device.c:124-129`) -/
  | poll
  | strongCheck
  deriving DecidableEq, Repr

/-- Commands and the keyboard are processed only outside of calls or inside of the body of a wait. -/
def St.free (s : St) : Bool :=
  s.strong.isNone && (match s.wait with | none => true | some w => w.body)

/-- The start of `wait_for_user_presence` (`device.c:50-66`). -/
def startWait (s : St) (e : Entry) : St :=
  match s.wait with
  | some _ => s.say .denied
  | none => { s with wait := some ⟨e, s.tick, s.tick, false⟩ }.say (.began e)

/-- The loop condition and, when a touch is there, the end of the function (`device.c:68`, `94-98`). -/
def check (s : St) (w : Wait) : St :=
  match s.touch with
  | none => { s with wait := some { w with body := true } }
  | some t => { s with touch := none, wait := none }.say (.ok t)

/-- The rest of the loop body (`device.c:75-91`). -/
def body (s : St) (w : Wait) (cancel : Bool) : St :=
  if cancel then { s with wait := none }.say .cancelled
  else if since s.tick w.start ≥ 30000 then { s with wait := none }.say .timeout
  else if since s.tick w.last ≥ 100 then
    let s := { s with wait := some { w with last := s.tick, body := false } }
    if w.entry = .hid then s.say .keepAlive else s
  else { s with wait := some { w with body := false } }

/-- The `if` inside of the five-touch test (`device.c:117-123`). -/
def poll (s : St) (q : Strong) : St :=
  match s.touch with
  | some t =>
    if t.short then
      { s with touch := none, strong := some { q with cur := t :: q.cur, start := s.tick, polled := true } }.say
        (.strongSaw t)
    else { s with strong := some { q with polled := true } }
  | none => { s with strong := some { q with polled := true } }

/-- The loop conditions of the five-touch test (`device.c:124-130`). -/
def strongCheck (s : St) (q : Strong) : St :=
  if since s.tick q.start < 2000 then { s with strong := some { q with polled := false } }
  else if q.cur.isEmpty then { s with strong := none }.say .strongFail
  else if q.rounds.length + 1 < 5 then
    { s with strong := some ⟨q.cur :: q.rounds, [], s.tick, false⟩ }
  else { s with strong := none }.say (.strongOk (q.cur :: q.rounds))

/-- One step; operations that are not possible in a state do nothing. -/
def step (s : St) : Op → St
  | .tick d => { s with now := s.now + d }
  | .press short =>
    { s with touch := some ⟨s.count, short, s.now⟩, count := s.count + 1 }.say (.pressed ⟨s.count, short, s.now⟩)
  | .expire => { s with touch := none }.say .expired
  | .take =>
    if s.free then
      match s.touch with
      | some t => { s with touch := none }.say (.taken t)
      | none => s
    else s
  | .wait e => if s.free then startWait s e else s
  | .check =>
    match s.strong, s.wait with
    | none, some w => if w.body then s else check s w
    | _, _ => s
  | .body cancel =>
    match s.strong, s.wait with
    | none, some w => if w.body then body s w cancel else s
    | _, _ => s
  | .strong => if s.free then { s with strong := some ⟨[], [], s.tick, false⟩ }.say .strongBegan else s
  | .poll =>
    match s.strong with
    | some q => if q.polled then s else poll s q
    | none => s
  | .strongCheck =>
    match s.strong with
    | some q => if q.polled then strongCheck s q else s
    | none => s

/-- A history. -/
def run (s : St) (h : List Op) : St := h.foldl step s

end Verif.Device
