import Verif.Base.Storage
/-
Model of `/repo/src/pin.c` (PIN objects used by the admin, PIV and OpenPGP applets).
-/
namespace Verif.Pin

/-- A PIN file with its two attributes (`/repo/src/pin.c:8-19`): contents, attribute 0
(`RETRY_ATTR`) and attribute 1 (`DEFAULT_RETRY_ATTR`); a missing attribute is `none`. -/
structure PinFile where
  data : Bytes
  ctr : Option UInt8
  dflt : Option UInt8
  deriving DecidableEq, Repr

/-- Flash: the PIN file, `none` while it has never been created. -/
abbrev Flash := Option PinFile

/-- The constant part of `pin_t` (`/repo/include/pin.h:7-12`) and the facts about the external
`memcmp_s` the code depends on: `memcmp_s` returns 0 on equal buffers and `neq` otherwise
(canokey-crypto, not in the tree). -/
structure Cfg where
  minLen : UInt8
  maxLen : UInt8
  neq : Int

/-- RAM: `pin_t.is_validated` (`/repo/include/pin.h:10`). -/
structure Ram where
  validated : Bool
  deriving DecidableEq, Repr

abbrev M := FsM Flash Ram

/-- Return codes (`/repo/include/pin.h:14-16`). -/
inductive Rc where
  | ok
  | ioFail
  | authFail
  | lengthInvalid
  deriving DecidableEq, Repr

/-- `write_file(pin->path, buf, 0, len, 1)`: create or replace the contents, keep attributes
(`/repo/src/fs.c:38-61`). -/
def wrFile (b : Bytes) : M Bool :=
  FsM.write fun f => some (some { (f.getD ⟨[], none, none⟩) with data := b })

/-- `write_attr(pin->path, RETRY_ATTR, ..)` (`/repo/src/fs.c:98-100`); fails on a missing file. -/
def wrCtr (c : UInt8) : M Bool := FsM.write fun f => f.map fun p => some { p with ctr := some c }

/-- `write_attr(pin->path, DEFAULT_RETRY_ATTR, ..)`. -/
def wrDflt (c : UInt8) : M Bool := FsM.write fun f => f.map fun p => some { p with dflt := some c }

/-- `read_attr(pin->path, RETRY_ATTR, ..)` (`/repo/src/fs.c:94-96`). -/
def rdCtr : M (Option UInt8) := FsM.read fun f => f.bind (·.ctr)
/-- `read_attr(pin->path, DEFAULT_RETRY_ATTR, ..)`. -/
def rdDflt : M (Option UInt8) := FsM.read fun f => f.bind (·.dflt)
/-- `read_file(pin->path, pin_buf, 0, PIN_MAX_LENGTH)`, `PIN_MAX_LENGTH = 64`
(`/repo/src/pin.c:30`, `/repo/include/pin.h:17`). -/
def rdData : M (Option Bytes) := FsM.read fun f => f.map (·.data.take 64)
/-- `get_file_size(pin->path)` (`/repo/src/pin.c:73`). -/
def rdSize : M (Option Nat) := FsM.read fun f => f.map (·.data.length)

/-- `memcmp_s(a, b, n)` (external; see `Cfg.neq`). -/
def memcmpS (cfg : Cfg) (a b : Bytes) (n : Nat) : Int := if a.take n = b.take n then 0 else cfg.neq

/-- The test of `/repo/src/pin.c:32`:
`((real_len != (int)len) - memcmp_s(buf, pin_buf, len)) != 0`. `real` are the bytes read from the
file, `stack` what follows them in the local array. -/
def mismatch (cfg : Cfg) (real stack buf : Bytes) (len : UInt8) : Bool :=
  (if real.length ≠ len.toNat then (1 : Int) else 0) - memcmpS cfg buf (real ++ stack) len.toNat ≠ 0

/-- `pin_create` (`/repo/src/pin.c:11-19`).  `buf` has `len` bytes. -/
def create (buf : Bytes) (maxRetries : UInt8) : M Rc := do
  if !(← wrFile buf) then return .ioFail
  if !(← wrCtr maxRetries) then return .ioFail
  if !(← wrDflt maxRetries) then return .ioFail
  return .ok

/-- `pin_verify` (`/repo/src/pin.c:21-58`).  `buf` is the memory at the candidate pointer, of which
`len` bytes are compared; `stack` is the unspecified initial content of the local array `pin_buf`
behind the bytes read from the file.  Returns the code and the value stored in `*retries` (`none`
when it is not assigned). The `#ifdef FUZZ` branch is not modelled. -/
def verify (cfg : Cfg) (stack : Bytes) (buf : Bytes) (len : UInt8) : M (Rc × Option UInt8) := do
  FsM.modRam fun _ => ⟨false⟩
  if len < cfg.minLen || len > cfg.maxLen then return (.lengthInvalid, none)
  match ← rdCtr with
  | none => return (.ioFail, none)
  | some ctr =>
    if ctr == 0 then return (.authFail, some ctr)
    match ← rdData with
    | none => return (.ioFail, some ctr)
    | some real =>
      if mismatch cfg real stack buf len then
        if !(← wrCtr (ctr - 1)) then return (.ioFail, some (ctr - 1))
        return (.authFail, some (ctr - 1))
      FsM.modRam fun _ => ⟨true⟩
      match ← rdDflt with
      | none => return (.ioFail, some ctr)
      | some d =>
        if !(← wrCtr d) then return (.ioFail, some ctr)
        return (.ok, some ctr)

/-- `pin_update` (`/repo/src/pin.c:60-71`); the first `len` bytes at `buf` become the PIN. -/
def update (cfg : Cfg) (buf : Bytes) (len : UInt8) : M Rc := do
  if len < cfg.minLen || len > cfg.maxLen then return .lengthInvalid
  FsM.modRam fun _ => ⟨false⟩
  if !(← wrFile (buf.take len.toNat)) then return .ioFail
  match ← rdDflt with
  | none => return .ioFail
  | some d =>
    if !(← wrCtr d) then return .ioFail
    return .ok

/-- `pin_get_retries` (`/repo/src/pin.c:75-81`); `none` is `PIN_IO_FAIL`. -/
def getRetries : M (Option Nat) := do
  if (← rdSize) == some 0 then return some 0
  match ← rdCtr with
  | none => return none
  | some c => return some c.toNat

/-- `pin_clear` (`/repo/src/pin.c:91-100`). -/
def clear : M Rc := do
  if !(← wrFile []) then return .ioFail
  match ← rdDflt with
  | none => return .ioFail
  | some d =>
    if !(← wrCtr d) then return .ioFail
    return .ok

/-! ### Histories -/

/-- One call on a PIN object, or loss of the session (`*_poweroff`, which sets `is_validated = 0`,
e.g. `/repo/applets/admin/admin.c:61`). -/
inductive Op where
  | create (buf : Bytes) (maxRetries : UInt8)
  | verify (stack buf : Bytes) (len : UInt8)
  | update (buf : Bytes) (len : UInt8)
  | clear
  | getRetries
  | powerOff
  deriving DecidableEq, Repr

/-- What the caller observes. -/
inductive Out where
  | rc (r : Rc)
  | verified (r : Rc) (retries : Option UInt8)
  | retries (n : Option Nat)
  | none
  /-- power was cut during the call -/
  | cut
  deriving DecidableEq, Repr

structure St where
  flash : Flash
  ram : Ram
  deriving DecidableEq, Repr

/-- Run a call under a fault schedule; a power cut clears RAM (static initialiser
`.is_validated = 0`, e.g. `/repo/applets/admin/admin.c:18`). -/
def exec {α : Type} (m : M α) (out : α → Out) (s : St) (env : Env) : St × Out :=
  match m ⟨s.flash, s.ram, env⟩ with
  | (some a, w) => (⟨w.flash, w.ram⟩, out a)
  | (none, w) => (⟨w.flash, ⟨false⟩⟩, .cut)

def step (cfg : Cfg) (s : St) (op : Op) (env : Env) : St × Out :=
  match op with
  | .create b n => exec (create b n) .rc s env
  | .verify st b l => exec (verify cfg st b l) (fun p => .verified p.1 p.2) s env
  | .update b l => exec (update cfg b l) .rc s env
  | .clear => exec clear .rc s env
  | .getRetries => exec getRetries .retries s env
  | .powerOff => (⟨s.flash, ⟨false⟩⟩, .none)

/-- Run a history; returns the final state and all outputs. -/
def run (cfg : Cfg) (s : St) : List (Op × Env) → St × List Out
  | [] => (s, [])
  | (op, env) :: h =>
    let (s', o) := step cfg s op env
    let (s'', os) := run cfg s' h
    (s'', o :: os)

end Verif.Pin
