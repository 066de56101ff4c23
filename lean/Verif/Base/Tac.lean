import Verif.Base.Parse
import Verif.Base.Zoom
import Verif.Model.Apdu
import Lean.Elab.Tactic.Split
/-
Automation for weakest preconditions: `wps` walks through a command and leaves the goals at its exits.
-/
namespace Verif.Cmd

variable {φ ρ α : Type} {A : Fault → Prop} {E : Reply → φ → ρ → Prop} {X : φ → ρ → Prop} {f : φ} {r : ρ}

theorem wp_mem {p : C α} {Q : α → φ → ρ → Prop} (hQ : ∀ a, p = .ok a → Q a f r)
    (hU : ∀ u, p = .error u → E (.ub u) f r) : wp A (Cmd.mem p) Q E X f r := by
  unfold Cmd.mem
  split
  · exact wp_throw (hU _ rfl)
  · exact wp_pure (hQ _ rfl)

theorem wp_rd {b : Bytes} {k : Nat} {Q : Byte → φ → ρ → Prop} (h : k < b.length)
    (hQ : ∀ v, b[k]? = some v → Q v f r) : wp A (Cmd.mem (Verif.rd b k)) Q E X f r := by
  rw [rd_ok h]
  exact wp_pure (hQ _ (by simp [h]))

/-- The result of a call that is not propagated. -/
theorem wp_run {m : Cmd φ ρ Reply α} {Q : Except Reply α → φ → ρ → Prop}
    (h : wp A m (fun a => Q (.ok a)) (fun e => Q (.error e)) X f r) :
    wp A (Cmd.lift m.run : Cmd φ ρ Reply _) Q E X f r := by
  intro env henv
  have h1 := h env henv
  rw [Cmd.lift_run]
  cases hm : m.run ⟨f, r, env⟩ with
  | mk o w =>
    rw [hm] at h1
    cases o with
    | none => exact h1
    | some a => cases a <;> exact h1

/-- One step into a command. -/
macro "wstep" : tactic => `(tactic| first
  | with_reducible apply wp_pure
  | with_reducible apply wp_throw
  | with_reducible apply wp_bind
  | with_reducible apply wp_get
  | with_reducible apply wp_mod
  | (with_reducible apply wp_ite <;> intro _)
  | (with_reducible apply wp_rdOr <;> intros)
  | (with_reducible apply wp_wrOr <;> intros)
  | (with_reducible refine wp_rd (by first | omega | (simp only [Apdu.Capdu.lc, beq_iff_eq, bne_iff_ne, ne_eq, Decidable.not_not] at *; omega) | (simp_all [Apdu.Capdu.lc]; done) | (simp_all [Apdu.Capdu.lc]; omega)) ?_ <;> intros))

open Lean Elab Tactic in
/-- Succeeds if the command of the goal is a `match`. -/
elab "is_match" : tactic => do
  let t ← instantiateMVars (← (← getMainGoal).getType)
  let some m := t.getAppArgs[5]? | throwError "no command"
  unless ← Meta.isMatcherApp m.headBeta do throwError "not a match"

open Lean in
/-- Beta- and zeta-reduction at the head of an expression. -/
partial def headNorm (e : Expr) : Expr :=
  match e.headBeta with
  | .letE _ _ v b _ => headNorm (b.instantiate1 v)
  | .mdata _ b => headNorm b
  | e => e

open Lean Elab Tactic in
/-- Reduces `let`s at the head of the command of the goal; fails if there are none. -/
elab "wzeta" : tactic => do
  let g ← getMainGoal
  let t ← instantiateMVars (← g.getType)
  let args := t.getAppArgs
  let some m := args[5]? | throwError "no command"
  let m' := headNorm m
  if m' == m then throwError "nothing to do"
  replaceMainGoal [← g.change (mkAppN t.getAppFn (args.set! 5 m'))]

/-- Walk through a command as far as possible. -/
macro "wps" : tactic => `(tactic| repeat' (first | wstep | wzeta | (is_match; with_reducible split)))

end Verif.Cmd
