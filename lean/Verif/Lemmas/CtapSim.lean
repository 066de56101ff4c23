import Verif.Lemmas.CtapWp
/-
Commands that commute with a change of the flash contents: they neither depend on what is changed nor
touch it.
-/
namespace Verif.Ctap
open Cmd

/-- A world with changed flash. -/
def onFlash (T : Flash → Flash) (w : World Flash Ram) : World Flash Ram := { w with flash := T w.flash }

/-- The command does the same after the change, and the change is still there afterwards. -/
def Sim {α : Type} (T : Flash → Flash) (m : M α) : Prop :=
  ∀ w, m.run (onFlash T w) = ((m.run w).1, onFlash T (m.run w).2)

theorem run_bind {φ ρ ε α β : Type} (m : Cmd φ ρ ε α) (g : α → Cmd φ ρ ε β) (w : World φ ρ) :
    (m >>= g).run w = match m.run w with
      | (some (.ok a), w') => (g a).run w'
      | (some (.error e), w') => (some (.error e), w')
      | (none, w') => (none, w') := by
  have hb : (m >>= g).run = (m.run >>= fun x => match x with
      | .ok a => (g a).run
      | .error e => Pure.pure (.error e)) := by
    rfl
  rw [hb]
  simp only [FsM.bind_eq]
  cases m.run w with
  | mk o w' =>
    cases o with
    | none => rfl
    | some y => cases y <;> rfl

namespace Sim
variable {α β σ : Type} {T : Flash → Flash}

theorem pure (a : α) : Sim T (Pure.pure a : M α) := fun _ => rfl
theorem throw (e : Err) : Sim T (MonadExcept.throw e : M α) := fun _ => rfl
theorem fail (c : Byte) : Sim T (fail c : M α) := fun _ => rfl
theorem failIf (b : Bool) (c : Byte) : Sim T (failIf b c) := by
  unfold Ctap.failIf
  cases b
  · exact Sim.pure _
  · exact Sim.fail _
theorem bind {m : M α} {g : α → M β} (h : Sim T m) (h' : ∀ a, Sim T (g a)) : Sim T (m >>= g) := by
  intro w
  rw [run_bind, run_bind, h w]
  cases m.run w with
  | mk o w' =>
    cases o with
    | none => rfl
    | some y =>
      cases y with
      | error _ => rfl
      | ok a => exact h' a w'
theorem get : Sim T (Cmd.get : M Ram) := fun _ => rfl
theorem mod {g : Ram → Ram} : Sim T (Cmd.mod g : M Unit) := fun _ => rfl
theorem rdF {look : Flash → Option α} (h : ∀ f, look (T f) = look f) : Sim T (Cmd.rdF look : M (Option α)) := by
  intro w
  obtain ⟨f, r, env⟩ := w
  cases he : env 0 <;> simp [Cmd.rdF, Cmd.lift, ExceptT.run, ExceptT.mk, FsM.read, onFlash, he, h]
theorem wrF {upd : Flash → Option Flash} (h : ∀ f, upd (T f) = (upd f).map T) : Sim T (Cmd.wrF upd : M Bool) := by
  intro w
  obtain ⟨f, r, env⟩ := w
  cases he : env 0 <;> simp [Cmd.wrF, Cmd.lift, ExceptT.run, ExceptT.mk, FsM.write, onFlash, he, h]
  cases upd f <;> simp
theorem rdOr {look : Flash → Option α} {e : Err} (h : ∀ f, look (T f) = look f) : Sim T (Cmd.rdOr look e : M α) := by
  unfold Cmd.rdOr
  apply Sim.bind (Sim.rdF h)
  intro a
  cases a
  · exact Sim.throw _
  · exact Sim.pure _
theorem wrOr {upd : Flash → Option Flash} {e : Err} (h : ∀ f, upd (T f) = (upd f).map T) :
    Sim T (Cmd.wrOr upd e : M Unit) := by
  unfold Cmd.wrOr
  apply Sim.bind (Sim.wrF h)
  intro a
  cases a
  · exact Sim.throw _
  · exact Sim.pure _
theorem caught {m : M α} (h : Sim T m) : Sim T (Cmd.lift m.run : M _) := by
  intro w
  rw [Cmd.lift_run, Cmd.lift_run, h w]
  cases m.run w with
  | mk o w' => cases o <;> rfl
theorem ite {c : Prop} [Decidable c] {m n : M α} (h : c → Sim T m) (h' : ¬ c → Sim T n) :
    Sim T (if c then m else n) := by
  by_cases hc : c
  · rw [if_pos hc]; exact h hc
  · rw [if_neg hc]; exact h' hc
theorem rdRec {recs : Flash → Option (List β)} (h : ∀ f, recs (T f) = recs f) (i : Nat) : Sim T (rdRec recs i) := by
  unfold Ctap.rdRec
  apply Sim.bind (Sim.rdOr h)
  intro l
  split
  · exact Sim.throw _
  · exact Sim.pure _
theorem scanUp {recs : Flash → Option (List β)} (h : ∀ f, recs (T f) = recs f)
    (body : Nat → β → σ → σ × Bool) (k i : Nat) (s : σ) : Sim T (scanUp recs body k i s) := by
  induction k generalizing i s with
  | zero => exact Sim.pure _
  | succ k ih =>
    unfold Ctap.scanUp
    apply Sim.bind (Sim.rdRec h _)
    intro b
    split
    · exact Sim.pure _
    · exact ih _ _
theorem scanDown {recs : Flash → Option (List β)} (h : ∀ f, recs (T f) = recs f) (body : Nat → β → σ → σ)
    (k : Nat) (s : σ) : Sim T (scanDown recs body k s) := by
  induction k generalizing s with
  | zero => exact Sim.pure _
  | succ k ih =>
    unfold Ctap.scanDown
    exact Sim.bind (Sim.rdRec h _) fun b => ih _
end Sim

/-- Steps of such a proof. -/
macro "sstep" : tactic => `(tactic| first
  | with_reducible apply Sim.pure
  | with_reducible apply Sim.throw
  | with_reducible apply Sim.fail
  | with_reducible apply Sim.failIf
  | with_reducible apply Sim.get
  | with_reducible apply Sim.mod
  | with_reducible apply Sim.rdF
  | with_reducible apply Sim.rdOr
  | with_reducible apply Sim.rdRec
  | with_reducible apply Sim.scanUp
  | with_reducible apply Sim.scanDown
  | (with_reducible apply Sim.bind; rotate_left; intro _; rotate_right)
  | (with_reducible apply Sim.ite <;> intro _)
  | with_reducible apply Sim.wrOr
  | with_reducible apply Sim.wrF
  | with_reducible apply Sim.caught)

/-- Walk through a command; `t` closes the rest. -/
macro "sims" t:tacticSeq : tactic => `(tactic| repeat' (first | sstep | rzeta | (is_rmatch; with_reducible split) | ($t)))

end Verif.Ctap
