import Verif.Base.Zoom
/-
Computations use up a part of the fault schedule from its beginning, one entry per file-system call.
-/
namespace Verif

/-- What is left of the fault schedule is what comes behind the calls made. -/
def Shifts {φ ρ α : Type} (m : FsM φ ρ α) : Prop := ∀ w, ∃ k, (m w).2.env = fun n => w.env (n + k)

namespace Shifts
variable {φ ρ α β ε Φ Ρ : Type}

theorem pure (a : α) : Shifts (Pure.pure a : FsM φ ρ α) := fun _ => ⟨0, rfl⟩

theorem getRam : Shifts (FsM.getRam : FsM φ ρ ρ) := fun _ => ⟨0, rfl⟩

theorem modRam (f : ρ → ρ) : Shifts (FsM.modRam f : FsM φ ρ Unit) := fun _ => ⟨0, rfl⟩

theorem read (look : φ → Option α) : Shifts (FsM.read look : FsM φ ρ (Option α)) := fun w => by
  refine ⟨1, ?_⟩
  rw [FsM.read_eq]
  cases w.env 0 <;> rfl

theorem write (upd : φ → Option φ) : Shifts (FsM.write upd : FsM φ ρ Bool) := fun w => by
  refine ⟨1, ?_⟩
  rw [FsM.write_eq]
  cases w.env 0 with
  | ok => cases upd w.flash <;> rfl
  | fail => rfl
  | cut => rfl

theorem bind {m : FsM φ ρ α} {g : α → FsM φ ρ β} (h : Shifts m) (h' : ∀ a, Shifts (g a)) :
    Shifts (m >>= g) := fun w => by
  obtain ⟨k, hk⟩ := h w
  rw [FsM.bind_eq]
  cases hm : m w with
  | mk o w' =>
    rw [hm] at hk
    cases o with
    | none => exact ⟨k, hk⟩
    | some a =>
      obtain ⟨j, hj⟩ := h' a w'
      exact ⟨j + k, by
        simp only [hj]
        have hk' : w'.env = fun n => w.env (n + k) := hk
        rw [hk']
        funext n
        show w.env (n + j + k) = w.env (n + (j + k))
        rw [Nat.add_assoc]⟩

theorem ite {c : Prop} [Decidable c] {m n : FsM φ ρ α} (h : Shifts m) (h' : Shifts n) :
    Shifts (if c then m else n) := by
  by_cases hc : c
  · rw [if_pos hc]; exact h
  · rw [if_neg hc]; exact h'

theorem zoom (pf : Part Φ φ) (pr : Part Ρ ρ) {m : FsM φ ρ α} (h : Shifts m) : Shifts (FsM.zoom pf pr m) :=
  fun w => h ⟨pf.get w.flash, pr.get w.ram, w.env⟩

end Shifts

theorem Cmd.run_bind_fs {φ ρ ε α β : Type} (m : Cmd φ ρ ε α) (g : α → Cmd φ ρ ε β) :
    (m >>= g).run = (m.run >>= fun x => match x with
      | .ok a => (g a).run
      | .error e => Pure.pure (.error e)) := by
  rfl

/-- The same for commands. -/
def CShifts {φ ρ ε α : Type} (m : Cmd φ ρ ε α) : Prop := Shifts m.run

namespace CShifts
variable {φ ρ α β ε Φ Ρ : Type}

theorem pure (a : α) : CShifts (Pure.pure a : Cmd φ ρ ε α) := fun _ => ⟨0, rfl⟩
theorem throw (e : ε) : CShifts (MonadExcept.throw e : Cmd φ ρ ε α) := fun _ => ⟨0, rfl⟩

theorem lift {m : FsM φ ρ α} (h : Shifts m) : CShifts (Cmd.lift m : Cmd φ ρ ε α) := fun w => by
  obtain ⟨k, hk⟩ := h w
  refine ⟨k, ?_⟩
  rw [Cmd.lift_run]
  cases hm : m w with
  | mk o w' => rw [hm] at hk; cases o <;> exact hk

theorem get : CShifts (Cmd.get : Cmd φ ρ ε ρ) := lift Shifts.getRam
theorem mod (f : ρ → ρ) : CShifts (Cmd.mod f : Cmd φ ρ ε Unit) := lift (Shifts.modRam f)
theorem rdF (look : φ → Option α) : CShifts (Cmd.rdF look : Cmd φ ρ ε (Option α)) := lift (Shifts.read look)
theorem wrF (upd : φ → Option φ) : CShifts (Cmd.wrF upd : Cmd φ ρ ε Bool) := lift (Shifts.write upd)

theorem bind {m : Cmd φ ρ ε α} {g : α → Cmd φ ρ ε β} (h : CShifts m) (h' : ∀ a, CShifts (g a)) :
    CShifts (m >>= g) := by
  unfold CShifts
  rw [Cmd.run_bind_fs]
  apply Shifts.bind h
  intro x
  cases x with
  | ok a => exact h' a
  | error e => exact Shifts.pure _

theorem rdOr (look : φ → Option α) (e : ε) : CShifts (Cmd.rdOr look e : Cmd φ ρ ε α) :=
  bind (rdF look) fun o => by cases o <;> first | exact throw _ | exact pure _

theorem wrOr (upd : φ → Option φ) (e : ε) : CShifts (Cmd.wrOr upd e : Cmd φ ρ ε Unit) :=
  bind (wrF upd) fun o => by cases o <;> first | exact throw _ | exact pure _

theorem ite {c : Prop} [Decidable c] {m n : Cmd φ ρ ε α} (h : CShifts m) (h' : CShifts n) :
    CShifts (if c then m else n) := by
  by_cases hc : c
  · rw [if_pos hc]; exact h
  · rw [if_neg hc]; exact h'

theorem zoom (pf : Part Φ φ) (pr : Part Ρ ρ) {m : Cmd φ ρ ε α} (h : CShifts m) : CShifts (Cmd.zoom pf pr m) :=
  Shifts.zoom pf pr h

end CShifts

/-- Close a `CShifts` goal by the structure of the command. -/
macro "shifts" : tactic => `(tactic| repeat' (with_reducible first
  | exact CShifts.pure _ | exact CShifts.throw _ | exact CShifts.get | exact CShifts.mod _
  | exact CShifts.rdF _ | exact CShifts.wrF _ | exact CShifts.rdOr _ _ | exact CShifts.wrOr _ _
  | apply CShifts.zoom | apply CShifts.lift | apply CShifts.bind | apply CShifts.ite
  | exact Shifts.pure _ | exact Shifts.getRam | exact Shifts.modRam _ | exact Shifts.read _ | exact Shifts.write _
  | apply Shifts.bind | apply Shifts.ite | intro _ | split | assumption))

end Verif
