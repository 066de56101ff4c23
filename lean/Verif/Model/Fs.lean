import Verif.Base.Storage
/-
Model of `/repo/src/fs.c`, the functions through which all applets use the file system.

The code below them is littlefs, an empty submodule of `/repo`. Its calls are modelled here from its
documentation and its published source (version 2): a file that is open for writing has a working copy,
which replaces the file on flash in one commit when it is closed; creating a file is a commit of its own,
made when it is opened; a file whose write failed is closed without a commit; attributes and renaming are
commits of their own. Each call of littlefs that touches the flash may succeed, fail without effect or be
the moment at which power is lost.
-/
namespace Verif.Fs

/-- A file on flash with its attributes. Simplification: littlefs stores attributes of a limited size. -/
structure File where
  data : Bytes
  attr : Byte → Option Bytes

/-- A file that has just been created. -/
def File.empty : File := ⟨[], fun _ => none⟩

/-- The flash: the files of the root directory (the code uses no other). -/
abbrev Disk := String → Option File

/-- Change one file. -/
def Disk.put (d : Disk) (p : String) (f : File) : Disk := fun q => if q = p then some f else d q

/-- An open file, `lfs_file_t`: the working copy, the position, and the flags `LFS_F_DIRTY` and
`LFS_F_ERRED`. -/
structure Handle where
  path : String
  data : Bytes
  pos : Nat
  dirty : Bool
  erred : Bool
  deriving DecidableEq, Repr

/-- The volatile state: the file that is open, if any. All files share the buffer `file_buffer`
(`/repo/src/fs.c:7-11`), which littlefs forbids for files that are open at the same time: opening a second
one, or using a file that is not open, sets `ub` (undefined behaviour). -/
structure Ram where
  h : Option Handle
  ub : Bool
  deriving DecidableEq, Repr

/-- RAM at power-on. -/
def Ram.init : Ram := ⟨none, false⟩

abbrev M := FsM Disk Ram

/-- `LFS_FILE_MAX` of littlefs. -/
def fileMax : Nat := 2147483647
/-- `LFS_ATTR_MAX` of littlefs. -/
def attrMax : Nat := 1022

/-- Error codes of littlefs: `LFS_ERR_IO`, `LFS_ERR_NOENT`, `LFS_ERR_INVAL`, `LFS_ERR_FBIG`, `LFS_ERR_NOSPC`,
`LFS_ERR_NOATTR`. Simplification: a failing flash access always gives `LFS_ERR_IO` (callers only look at
the sign). -/
def eIo : Int := -5
def eNoEnt : Int := -2
def eInval : Int := -22
def eFBig : Int := -27
def eNoSpc : Int := -28
def eNoAttr : Int := -61

/-! ### littlefs -/

/-- `lfs_file_opencfg` with `LFS_O_CREAT` (`creat`) and `LFS_O_TRUNC` (`trunc`). -/
def lfsOpen (p : String) (creat trunc : Bool) : M Int := do
  if (← FsM.getRam).h.isSome then
    FsM.modRam fun r => { r with ub := true }
    return eInval
  match ← FsM.read fun d => some (d p) with
  | none => return eIo
  | some none =>
    if !creat then return eNoEnt
    if ← FsM.write fun d => some (d.put p .empty) then
      FsM.modRam fun r => { r with h := some ⟨p, [], 0, false, false⟩ }
      return 0
    else return eIo
  | some (some f) =>
    FsM.modRam fun r => { r with h := some ⟨p, if trunc then [] else f.data, 0, trunc, false⟩ }
    return 0

/-- The file that is open; undefined behaviour if none is. -/
def handle : M (Option Handle) := do
  match (← FsM.getRam).h with
  | some h => return some h
  | none =>
    FsM.modRam fun r => { r with ub := true }
    return none

/-- `lfs_file_seek` to an absolute position, directly after opening, when there is nothing to flush: it only
fails for a position out of range. -/
def lfsSeek (off : Int) : M Int := do
  match ← handle with
  | none => return eInval
  | some h =>
    if off < 0 || off > (fileMax : Int) then return eInval
    FsM.modRam fun r => { r with h := some { h with pos := off.toNat } }
    return off

/-- `lfs_file_seek(.., 0, LFS_SEEK_END)`. -/
def lfsSeekEnd : M Int := do
  match ← handle with
  | none => return eInval
  | some h => lfsSeek (h.data.length : Nat)

/-- The working copy after writing `b` at `pos`: a gap behind the old end is filled with zeros. -/
def splice (old : Bytes) (pos : Nat) (b : Bytes) : Bytes :=
  old.take pos ++ List.replicate (pos - old.length) 0 ++ b ++ old.drop (pos + b.length)

/-- `lfs_file_write`: changes the working copy; a flash error marks the file, so that closing it does not
commit. -/
def lfsWrite (b : Bytes) : M Int := do
  match ← handle with
  | none => return eInval
  | some h =>
    if h.pos + b.length > fileMax then return eFBig
    match ← FsM.read fun _ => some () with
    | none =>
      FsM.modRam fun r => { r with h := some { h with erred := true } }
      return eIo
    | some () =>
      FsM.modRam fun r =>
        { r with h := some { h with data := splice h.data h.pos b, pos := h.pos + b.length, dirty := true } }
      return (b.length : Nat)

/-- `lfs_file_read`: the bytes read, or a negative code. -/
def lfsRead (len : Nat) : M (Except Int Bytes) := do
  match ← handle with
  | none => return .error eInval
  | some h =>
    match ← FsM.read fun _ => some () with
    | none => return .error eIo
    | some () =>
      let b := (h.data.drop h.pos).take len
      FsM.modRam fun r => { r with h := some { h with pos := h.pos + b.length } }
      return .ok b

/-- `lfs_file_truncate`. -/
def lfsTruncate (size : Nat) : M Int := do
  match ← handle with
  | none => return eInval
  | some h =>
    if size > fileMax then return eInval
    match ← FsM.read fun _ => some () with
    | none =>
      FsM.modRam fun r => { r with h := some { h with erred := true } }
      return eIo
    | some () =>
      let data := h.data.take size ++ List.replicate (size - h.data.length) 0
      FsM.modRam fun r => { r with h := some { h with data := data, dirty := h.dirty || size != h.data.length } }
      return 0

/-- `lfs_file_size`. -/
def lfsSize : M Int := do
  match ← handle with
  | none => return eInval
  | some h => return (h.data.length : Nat)

/-- `lfs_file_close`: commits the working copy if it was changed and no write failed. The file is closed
whatever happens. -/
def lfsClose : M Int := do
  match ← handle with
  | none => return eInval
  | some h =>
    FsM.modRam fun r => { r with h := none }
    if h.erred || !h.dirty then return 0
    if ← FsM.write fun d => (d h.path).map fun f => d.put h.path { f with data := h.data } then return 0
    else return eIo

/-- `lfs_getattr`: the size of the attribute and the buffer of `len` bytes, filled up with zeros. -/
def lfsGetAttr (p : String) (t : Byte) (len : Nat) : M (Except Int (Nat × Bytes)) := do
  match ← FsM.read fun d => some (d p) with
  | none => return .error eIo
  | some none => return .error eNoEnt
  | some (some f) =>
    match f.attr t with
    | none => return .error eNoAttr
    | some a => return .ok (a.length, a.take len ++ List.replicate (len - a.length) 0)

/-- `lfs_setattr`. -/
def lfsSetAttr (p : String) (t : Byte) (b : Bytes) : M Int := do
  if b.length > attrMax then return eNoSpc
  match ← FsM.read fun d => some (d p) with
  | none => return eIo
  | some none => return eNoEnt
  | some (some _) =>
    if ← FsM.write fun d => (d p).map fun f =>
        d.put p { f with attr := fun u => if u = t then some b else f.attr u } then return 0
    else return eIo

/-- `lfs_rename`. -/
def lfsRename (old new : String) : M Int := do
  match ← FsM.read fun d => some (d old) with
  | none => return eIo
  | some none => return eNoEnt
  | some (some f) =>
    if old = new then return 0
    if ← FsM.write fun d => some fun q => if q = new then some f else if q = old then none else d q then return 0
    else return eIo

/-! ### `/repo/src/fs.c` -/

/-- `read_file` (`/repo/src/fs.c:17-36`): the bytes read, or a negative code. -/
def readFile (p : String) (off : Int) (len : Nat) : M (Except Int Bytes) := do
  let err ← lfsOpen p false false
  if err < 0 then return .error err
  let err ← lfsSeek off
  if err < 0 then
    let _ ← lfsClose
    return .error err
  match ← lfsRead len with
  | .error err =>
    let _ ← lfsClose
    return .error err
  | .ok b =>
    let err ← lfsClose
    if err < 0 then return .error err
    return .ok b

/-- `write_file` (`/repo/src/fs.c:38-61`) without the error injection of the tests. -/
def writeFile (p : String) (b : Bytes) (off : Int) (trunc : Bool) : M Int := do
  let err ← lfsOpen p true trunc
  if err < 0 then return err
  let err ← lfsSeek off
  if err < 0 then
    let _ ← lfsClose
    return err
  if b.length > 0 then
    let err ← lfsWrite b
    if err < 0 then
      let _ ← lfsClose
      return err
  let err ← lfsClose
  if err < 0 then return err
  return 0

/-- `append_file` (`/repo/src/fs.c:63-79`). -/
def appendFile (p : String) (b : Bytes) : M Int := do
  let err ← lfsOpen p true false
  if err < 0 then return err
  let err ← lfsSeekEnd
  if err < 0 then
    let _ ← lfsClose
    return err
  if b.length > 0 then
    let err ← lfsWrite b
    if err < 0 then
      let _ ← lfsClose
      return err
  let err ← lfsClose
  if err < 0 then return err
  return 0

/-- `truncate_file` (`/repo/src/fs.c:81-94`). -/
def truncateFile (p : String) (len : Nat) : M Int := do
  let err ← lfsOpen p true false
  if err < 0 then return err
  let err ← lfsTruncate len
  if err < 0 then
    let _ ← lfsClose
    return err
  let err ← lfsClose
  if err < 0 then return err
  return 0

/-- `read_attr` (`/repo/src/fs.c:96-98`): return value and buffer. -/
def readAttr (p : String) (t : Byte) (len : Nat) : M (Except Int (Nat × Bytes)) := lfsGetAttr p t len

/-- `write_attr` (`/repo/src/fs.c:100-102`). -/
def writeAttr (p : String) (t : Byte) (b : Bytes) : M Int := lfsSetAttr p t b

/-- `get_file_size` (`/repo/src/fs.c:104-119`). -/
def getFileSize (p : String) : M Int := do
  let err ← lfsOpen p false false
  if err < 0 then return err
  let size ← lfsSize
  if size < 0 then
    let _ ← lfsClose
    return size
  let err ← lfsClose
  if err < 0 then return err
  return size

/-- `fs_rename` (`/repo/src/fs.c:129`). -/
def fsRename (old new : String) : M Int := lfsRename old new

/-! ### Histories -/

/-- One call of `/repo/src/fs.c`, or a restart. -/
inductive Op where
  | read (p : String) (off : Int) (len : Nat)
  | write (p : String) (b : Bytes) (off : Int) (trunc : Bool)
  | append (p : String) (b : Bytes)
  | truncate (p : String) (len : Nat)
  | readAttr (p : String) (t : Byte) (len : Nat)
  | writeAttr (p : String) (t : Byte) (b : Bytes)
  | size (p : String)
  | rename (old new : String)
  | boot
  deriving DecidableEq, Repr

/-- What the caller gets: bytes, an attribute with its size, a number or code, or nothing because power
was lost. -/
inductive Out where
  | bytes (r : Except Int Bytes)
  | attr (r : Except Int (Nat × Bytes))
  | code (r : Int)
  | none
  | cut

structure St where
  disk : Disk
  ram : Ram

/-- Run a call; a loss of power clears RAM. -/
def exec {α : Type} (m : M α) (out : α → Out) (s : St) (env : Env) : St × Out :=
  match m ⟨s.disk, s.ram, env⟩ with
  | (some a, w) => (⟨w.flash, w.ram⟩, out a)
  | (none, w) => (⟨w.flash, .init⟩, .cut)

def step (s : St) (op : Op) (env : Env) : St × Out :=
  match op with
  | .read p off len => exec (readFile p off len) .bytes s env
  | .write p b off trunc => exec (writeFile p b off trunc) .code s env
  | .append p b => exec (appendFile p b) .code s env
  | .truncate p len => exec (truncateFile p len) .code s env
  | .readAttr p t len => exec (readAttr p t len) .attr s env
  | .writeAttr p t b => exec (writeAttr p t b) .code s env
  | .size p => exec (getFileSize p) .code s env
  | .rename old new => exec (fsRename old new) .code s env
  | .boot => (⟨s.disk, .init⟩, .none)

/-- Run a history; returns the final state and all outputs. -/
def run (s : St) : List (Op × Env) → St × List Out
  | [] => (s, [])
  | (op, env) :: h =>
    let (s', o) := step s op env
    let (s'', os) := run s' h
    (s'', o :: os)

end Verif.Fs
