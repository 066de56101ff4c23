/-
Byte strings and the storage monad shared by the whole model.

Models the file-system layer `/repo/src/fs.c:18-141` (thin wrappers around littlefs) at the level
of its contract: each call either succeeds, returns a negative code and leaves flash unchanged, or
never returns because power is cut before its commit.  One call is one atomic commit (littlefs
contract, trusted).  Which of the three happens is decided by an arbitrary fault schedule.
-/
namespace Verif

/-- C `uint8_t`. -/
abbrev Byte := UInt8
/-- A C byte buffer together with its length. -/
abbrev Bytes := List UInt8

/-- What the environment does to one file-system call. -/
inductive Fault where
  /-- the call succeeds -/
  | ok
  /-- the call returns a negative error code and has no effect -/
  | fail
  /-- power is cut before the call takes effect -/
  | cut
  deriving DecidableEq, Repr

/-- A fault schedule: what happens to the 1st, 2nd, ... file-system call. -/
abbrev Env := Nat → Fault

/-- The schedule under which every call succeeds. -/
def Env.good : Env := fun _ => .ok

/-- Flash contents `φ`, volatile memory `ρ` and the remaining fault schedule. -/
structure World (φ ρ : Type) where
  flash : φ
  ram : ρ
  env : Env

/-- A computation over flash and RAM.  The result `none` means that power was cut on the way;
the returned world then holds the flash contents at that moment. -/
def FsM (φ ρ α : Type) : Type := World φ ρ → Option α × World φ ρ

namespace FsM
variable {φ ρ α β : Type}

def pure (a : α) : FsM φ ρ α := fun w => (some a, w)

def bind (m : FsM φ ρ α) (f : α → FsM φ ρ β) : FsM φ ρ β := fun w =>
  match m w with
  | (some a, w') => f a w'
  | (none, w') => (none, w')

instance : Monad (FsM φ ρ) where
  pure := FsM.pure
  bind := FsM.bind

/-- Read volatile memory. -/
def getRam : FsM φ ρ ρ := fun w => (some w.ram, w)
/-- Change volatile memory. -/
def modRam (f : ρ → ρ) : FsM φ ρ Unit := fun w => (some (), { w with ram := f w.ram })

/-- A reading file-system call (`read_file`, `read_attr`, `get_file_size`; `/repo/src/fs.c:18-36,
94-96,102-119`).  `look` is `none` when the file or attribute does not exist.  The result is
`none` exactly when the C call returns a negative code. -/
def read (look : φ → Option α) : FsM φ ρ (Option α) := fun w =>
  let rest : Env := fun n => w.env (n + 1)
  match w.env 0 with
  | .ok => (some (look w.flash), { w with env := rest })
  | .fail => (some none, { w with env := rest })
  | .cut => (none, { w with env := rest })

/-- A writing file-system call (`write_file`, `append_file`, `truncate_file`, `write_attr`,
`fs_rename`; `/repo/src/fs.c:38-92,98-100,129`).  `upd` is `none` when the call must fail (e.g.
`write_attr` on a missing file).  The result is `true` when the C call returns a non-negative
code. -/
def write (upd : φ → Option φ) : FsM φ ρ Bool := fun w =>
  let rest : Env := fun n => w.env (n + 1)
  match w.env 0 with
  | .ok =>
    match upd w.flash with
    | some f => (some true, { w with flash := f, env := rest })
    | none => (some false, { w with env := rest })
  | .fail => (some false, { w with env := rest })
  | .cut => (none, { w with env := rest })

@[simp] theorem bind_eq (m : FsM φ ρ α) (f : α → FsM φ ρ β) (w : World φ ρ) :
    (m >>= f) w = match m w with
      | (some a, w') => f a w'
      | (none, w') => (none, w') := rfl

@[simp] theorem pure_eq (a : α) (w : World φ ρ) :
    (Pure.pure a : FsM φ ρ α) w = (some a, w) := rfl

@[simp] theorem getRam_eq (w : World φ ρ) : getRam w = (some w.ram, w) := rfl

@[simp] theorem modRam_eq (f : ρ → ρ) (w : World φ ρ) :
    modRam f w = (some (), { w with ram := f w.ram }) := rfl

theorem read_eq (look : φ → Option α) (w : World φ ρ) :
    (read look : FsM φ ρ (Option α)) w = match w.env 0 with
      | .ok => (some (look w.flash), { w with env := fun n => w.env (n + 1) })
      | .fail => (some none, { w with env := fun n => w.env (n + 1) })
      | .cut => (none, { w with env := fun n => w.env (n + 1) }) := rfl

theorem write_eq (upd : φ → Option φ) (w : World φ ρ) :
    (write upd : FsM φ ρ Bool) w = match w.env 0 with
      | .ok =>
        match upd w.flash with
        | some f => (some true, { w with flash := f, env := fun n => w.env (n + 1) })
        | none => (some false, { w with env := fun n => w.env (n + 1) })
      | .fail => (some false, { w with env := fun n => w.env (n + 1) })
      | .cut => (none, { w with env := fun n => w.env (n + 1) }) := rfl

end FsM
end Verif
