import Verif.Model.Fs
/-
Vocabulary for C100: what a call of the file functions does to the files on flash, said in terms of the
bytes at each position.
-/
namespace Verif.Spec.Fs
open Verif.Fs

/-- `new` is `old` with `b` written at `off`: the bytes of `b` there, the old ones elsewhere, zeros in a gap.
Writing nothing changes nothing. -/
def IsWritten (old : Bytes) (off : Nat) (b new : Bytes) : Prop :=
  if b = [] then new = old
  else ∀ i, new[i]? =
    if off ≤ i ∧ i < off + b.length then b[i - off]?
    else if i < old.length then old[i]?
    else if i < off then some 0 else none

/-- `new` has `n` bytes: those of `old`, then zeros. -/
def IsResized (old : Bytes) (n : Nat) (new : Bytes) : Prop :=
  ∀ i, new[i]? = if n ≤ i then none else if i < old.length then old[i]? else some 0

/-- The contents of a file; a file that does not exist has none. -/
def contents (d : Disk) (p : String) : Bytes := ((d p).map (·.data)).getD []
/-- The attributes of a file. -/
def attrs (d : Disk) (p : String) : Byte → Option Bytes := ((d p).map (·.attr)).getD fun _ => none

/-- The files of `d'` are those of `d`, except that `p` now holds `data`. -/
def Holds (d : Disk) (p : String) (data : Bytes) (d' : Disk) : Prop :=
  d' p = some ⟨data, attrs d p⟩ ∧ ∀ q, q ≠ p → d' q = d q

/-- Nothing happened, except that a file that did not exist may exist now, empty. -/
def Untouched (d : Disk) (p : String) (d' : Disk) : Prop :=
  d' = d ∨ (d p = none ∧ Holds d p [] d')

/-- A call that changes the contents of `p` to something that is `good`: it returns 0 and has done so
completely, or it returns an error or never returns, and has done nothing. -/
def Changes (d : Disk) (p : String) (good : Bytes → Prop) (out : Out) (d' : Disk) : Prop :=
  match out with
  | .code r => (r = 0 ∧ ∃ data, good data ∧ Holds d p data d') ∨ (r < 0 ∧ Untouched d p d')
  | .cut => Untouched d p d'
  | _ => False

/-- What a call does and returns. -/
def Effect (d : Disk) (op : Op) (out : Out) (d' : Disk) : Prop :=
  match op with
  | .write p b off trunc =>
    Changes d p (IsWritten (if trunc then [] else contents d p) off.toNat b) out d'
  | .append p b => Changes d p (fun data => data = contents d p ++ b) out d'
  | .truncate p len => Changes d p (IsResized (contents d p) len) out d'
  | .read p off len => d' = d ∧
    match out with
    | .bytes (.ok b) => d p ≠ none ∧ b = ((contents d p).drop off.toNat).take len
    | .bytes (.error e) => e < 0
    | .cut => True
    | _ => False
  | .size p => d' = d ∧
    match out with
    | .code r => r < 0 ∨ (d p ≠ none ∧ r = (contents d p).length)
    | .cut => True
    | _ => False
  | .readAttr p t len => d' = d ∧
    match out with
    | .attr (.ok (n, b)) => ∃ a, attrs d p t = some a ∧ n = a.length ∧ b = a.take len ++ List.replicate (len - a.length) 0
    | .attr (.error e) => e < 0
    | .cut => True
    | _ => False
  | .writeAttr p t b =>
    match out with
    | .code r => (r = 0 ∧ d p ≠ none ∧ d' p = some ⟨contents d p, fun u => if u = t then some b else attrs d p u⟩ ∧
        ∀ q, q ≠ p → d' q = d q) ∨ (r < 0 ∧ d' = d)
    | .cut => d' = d
    | _ => False
  | .rename old new =>
    match out with
    | .code r => (r = 0 ∧ d old ≠ none ∧ d' new = d old ∧ (old ≠ new → d' old = none) ∧
        ∀ q, q ≠ old → q ≠ new → d' q = d q) ∨ (r < 0 ∧ d' = d)
    | .cut => d' = d
    | _ => False
  | .boot => d' = d ∧ out = .none

/-- A write that replaces the contents stays within the largest file there can be. -/
def InRange : Op → Prop
  | .write _ b off true => 0 ≤ off ∧ off + (b.length : Nat) ≤ (fileMax : Int)
  | _ => True

/-- The call may change the contents of `p`, or remove it. -/
def MayChange (p : String) : Op → Prop
  | .write q _ _ _ => q = p
  | .append q _ => q = p
  | .truncate q _ => q = p
  | .rename old new => old = p ∨ new = p
  | _ => False

/-- The operations of a history with their results. -/
def log (s : St) (h : List (Op × Env)) : List (Op × Out) := (h.map (·.1)).zip (run s h).2

/-! ### One call as one step -/

/-- What is seen of a call: whether it returned, with a code that is not negative, and the flash. -/
def seen (x : Option Int × World Disk Ram) : Option Bool × Disk := (x.1.map fun e => decide (0 ≤ e), x.2.flash)
/-- The same for a call that returns data. -/
def seenE {α : Type} (x : Option (Except Int α) × World Disk Ram) : Option (Option α) × Disk :=
  (x.1.map fun e => e.toOption, x.2.flash)

/-- Started on flash `d` with no file open, `m` can do just what one atomic write `upd` of the storage
model (`Verif.Base.Storage`) can do: succeed, fail without effect, or lose power without effect. -/
def WritesLike (m : M Int) (upd : Disk → Option Disk) (d : Disk) : Prop :=
  ∀ r : Ram, r.h = none →
    (∀ env : Env, ∃ ft : Fault, seen (m ⟨d, r, env⟩) =
      let w := (FsM.write upd : M Bool) ⟨d, r, fun _ => ft⟩; (w.1, w.2.flash)) ∧
    (∀ ft : Fault, ∃ env : Env, seen (m ⟨d, r, env⟩) =
      let w := (FsM.write upd : M Bool) ⟨d, r, fun _ => ft⟩; (w.1, w.2.flash))

/-- The same for a call that reads. -/
def ReadsLike {α : Type} (m : M (Except Int α)) (look : Disk → Option α) (d : Disk) : Prop :=
  ∀ r : Ram, r.h = none →
    (∀ env : Env, ∃ ft : Fault, seenE (m ⟨d, r, env⟩) =
      let w := (FsM.read look : M (Option α)) ⟨d, r, fun _ => ft⟩; (w.1, w.2.flash)) ∧
    (∀ ft : Fault, ∃ env : Env, seenE (m ⟨d, r, env⟩) =
      let w := (FsM.read look : M (Option α)) ⟨d, r, fun _ => ft⟩; (w.1, w.2.flash))

/-- The contents of one file replaced; the attributes stay. -/
def setData (d : Disk) (p : String) (data : Bytes) : Disk :=
  fun q => if q = p then some ⟨data, attrs d p⟩ else d q

end Verif.Spec.Fs
