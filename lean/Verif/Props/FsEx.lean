import Verif.Props.Fs
/-
C100: concrete cases, and what happens out of range.
-/
namespace Verif.Fs.Ex
open Verif.Spec.Fs

/-- One file with an attribute. -/
def disk : Disk := fun q => if q = "a" then some ⟨[1, 2, 3], fun t => if t = 0 then some [9] else none⟩ else none
def s0 : St := ⟨disk, .init⟩
def good : Env := fun _ => .ok
/-- The `n`th access to the flash is hit by `ft`. -/
def at_ (n : Nat) (ft : Fault) : Env := fun k => if k = n then ft else .ok

example : Fine s0 := rfl
example : disk "a" ≠ none ∧ attrs disk "a" 0 = some [9] ∧ contents disk "a" = [1, 2, 3] := by decide +kernel

/-- Two bytes written behind the end of the file. -/
example : IsWritten [1, 2, 3] 5 [7, 8] [1, 2, 3, 0, 0, 7, 8] := by
  have : ([1, 2, 3, 0, 0, 7, 8] : Bytes) = splice [1, 2, 3] 5 [7, 8] := by decide
  rw [this]; exact isWritten_splice _ _ (by decide)

example : contents (step s0 (.write "a" [7, 8] 5 false) good).1.disk "a" = [1, 2, 3, 0, 0, 7, 8] ∧
    contents (step s0 (.write "a" [7, 8] 5 true) good).1.disk "a" = [0, 0, 0, 0, 0, 7, 8] ∧
    contents (step s0 (.append "a" [7, 8]) good).1.disk "a" = [1, 2, 3, 7, 8] ∧
    contents (step s0 (.truncate "a" 2) good).1.disk "a" = [1, 2] ∧
    contents (step s0 (.truncate "a" 5) good).1.disk "a" = [1, 2, 3, 0, 0] := by decide +kernel

/-- The read, the write and the commit that `write_file` makes of an existing file, hit by a fault: the file is
as it was, and the file functions go on working. -/
example : ∀ ft ∈ [Fault.fail, Fault.cut], ∀ n ∈ [0, 1, 2],
    contents (step s0 (.write "a" [7, 8] 0 true) (at_ n ft)).1.disk "a" = [1, 2, 3] := by decide +kernel

/-- A history as in `C100_kept`: a failed write, a power cut, a write of another file and a rename of that. -/
def hist : List (Op × Env) :=
  [(.write "a" [5] 0 true, at_ 1 .fail), (.append "a" [6], at_ 2 .cut), (.write "b" [4] 0 true, good),
    (.rename "b" "c", good), (.boot, good), (.writeAttr "a" 1 [3], good)]

example : ∀ p ∈ hist, InRange p.1 := by
  intro p hp
  simp only [hist, List.mem_cons, List.not_mem_nil, or_false] at hp
  rcases hp with rfl | rfl | rfl | rfl | rfl | rfl <;> simp [InRange, fileMax]

/-- A file that did not exist can be left empty by a power cut: `write_file` is not atomic there. -/
theorem C100_create_witness : contents (step s0 (.write "n" [7, 8] 0 true) (at_ 2 .cut)).1.disk "n" = [] ∧
    ((step s0 (.write "n" [7, 8] 0 true) (at_ 2 .cut)).1.disk "n").isSome = true ∧ (disk "n").isSome = false := by
  decide +kernel

/-- Out of range (`InRange` does not hold): the write is refused, but closing the file commits that it was
emptied. The callers in `/repo` only use positions far below the limit. -/
theorem C100_range_witness : contents (step s0 (.write "a" [7] (-1) true) good).1.disk "a" = [] ∧
    (match (step s0 (.write "a" [7] (-1) true) good).2 with | .code e => decide (e < 0) | _ => false) = true := by
  decide +kernel

end Verif.Fs.Ex
