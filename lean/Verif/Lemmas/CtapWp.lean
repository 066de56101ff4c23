import Verif.Model.CtapCmd
import Verif.Base.Tac
/-
Weakest preconditions for the FIDO applet, and a calculus for relations between the states before
and after a command ("frames").
-/
namespace Verif.Ctap
open Cmd

section
variable {α β σ : Type} {A : Fault → Prop} {E : Err → Flash → Ram → Prop} {X : Flash → Ram → Prop}
  {f : Flash} {r : Ram}

/-- The result of a call that is not propagated. -/
theorem wp_catch {m : M α} {Q : Except Err α → Flash → Ram → Prop}
    (h : wp A m (fun a => Q (.ok a)) (fun e => Q (.error e)) X f r) :
    wp A (Cmd.lift m.run : M _) Q E X f r := by
  intro env henv
  have h1 := h env henv
  rw [Cmd.lift_run]
  cases hm : m.run ⟨f, r, env⟩ with
  | mk o w =>
    rw [hm] at h1
    cases o with
    | none => exact h1
    | some a => cases a <;> exact h1

theorem wp_fail {c : Byte} {Q : α → Flash → Ram → Prop} (h : E (.code c) f r) :
    wp A (fail c : M α) Q E X f r := wp_throw h

theorem wp_failIf {b : Bool} {c : Byte} {Q : Unit → Flash → Ram → Prop}
    (h : b = true → E (.code c) f r) (h' : b = false → Q () f r) :
    wp A (failIf b c) Q E X f r := by
  unfold failIf
  cases b
  · exact wp_pure (h' rfl)
  · exact wp_fail (h rfl)

theorem wp_rdRec {recs : Flash → Option (List β)} {i : Nat} {Q : β → Flash → Ram → Prop}
    (hok : ∀ l b, recs f = some l → l[i]? = some b → Q b f r)
    (hend : ∀ l, recs f = some l → l[i]? = none → E (.ub .uninit) f r)
    (hno : recs f = none → E (.code Code.unhandled) f r)
    (hfail : A .fail → E (.code Code.unhandled) f r) (hcut : A .cut → X f r) :
    wp A (rdRec recs i) Q E X f r := by
  unfold rdRec
  apply wp_bind
  apply wp_rdOr
  · intro l hl
    split
    · exact wp_throw (hend l hl ‹_›)
    · exact wp_pure (hok l _ hl ‹_›)
  · exact hno
  · exact hfail
  · exact hcut

/-- The loop of `scanUp` on a list. -/
def foldUp (body : Nat → β → σ → σ × Bool) : List β → Nat → σ → σ × Nat
  | [], i, s => (s, i)
  | b :: l, i, s =>
    match body i b s with
    | (s', true) => (s', i)
    | (s', false) => foldUp body l (i + 1) s'

/-- The loop of `scanDown` on a list. -/
def foldDown (body : Nat → β → σ → σ) (l : List β) : Nat → σ → σ
  | 0, s => s
  | k + 1, s =>
    match l[k]? with
    | none => foldDown body l k s
    | some b => foldDown body l k (body k b s)

theorem wp_scanUp {recs : Flash → Option (List β)} {body : Nat → β → σ → σ × Bool}
    {Q : σ × Nat → Flash → Ram → Prop} {l : List β} (hl : recs f = some l)
    (hfail : A .fail → E (.code Code.unhandled) f r) (hcut : A .cut → X f r) :
    ∀ {k i : Nat} {s : σ}, i + k = l.length → Q (foldUp body (l.drop i) i s) f r →
    wp A (scanUp recs body k i s) Q E X f r := by
  intro k
  induction k with
  | zero =>
    intro i s hk hQ
    rw [List.drop_of_length_le (by omega)] at hQ
    exact wp_pure hQ
  | succ k ih =>
    intro i s hk hQ
    have hi : i < l.length := by omega
    rw [List.drop_eq_getElem_cons hi] at hQ
    unfold foldUp at hQ
    unfold scanUp
    apply wp_bind
    apply wp_rdRec
    · intro l' b hl' hb
      rw [hl] at hl'
      cases hl'
      have hb' : l[i] = b := by
        rw [List.getElem?_eq_getElem hi] at hb
        exact Option.some.inj hb
      rw [hb'] at hQ
      revert hQ
      cases hbody : body i b s with
      | mk s' c =>
        cases c
        · intro hQ
          exact ih (by omega) hQ
        · intro hQ
          exact wp_pure hQ
    · intro l' hl' hn
      rw [hl] at hl'
      cases hl'
      rw [List.getElem?_eq_getElem hi] at hn
      cases hn
    · intro hn
      rw [hl] at hn
      cases hn
    · exact hfail
    · exact hcut

theorem wp_scanDown {recs : Flash → Option (List β)} {body : Nat → β → σ → σ}
    {Q : σ → Flash → Ram → Prop} {l : List β} (hl : recs f = some l)
    (hfail : A .fail → E (.code Code.unhandled) f r) (hcut : A .cut → X f r) :
    ∀ {k : Nat} {s : σ}, k ≤ l.length → Q (foldDown body l k s) f r →
    wp A (scanDown recs body k s) Q E X f r := by
  intro k
  induction k with
  | zero =>
    intro s hk hQ
    exact wp_pure hQ
  | succ k ih =>
    intro s hk hQ
    have hi : k < l.length := by omega
    unfold foldDown at hQ
    rw [List.getElem?_eq_getElem hi] at hQ
    unfold scanDown
    apply wp_bind
    apply wp_rdRec
    · intro l' b hl' hb
      rw [hl] at hl'
      cases hl'
      rw [List.getElem?_eq_getElem hi] at hb
      cases hb
      exact ih (by omega) hQ
    · intro l' hl' hn
      rw [hl] at hl'
      cases hl'
      rw [List.getElem?_eq_getElem hi] at hn
      cases hn
    · intro hn
      rw [hl] at hn
      cases hn
    · exact hfail
    · exact hcut

end

/-- One step into a command. -/
macro "cstep" : tactic => `(tactic| first
  | with_reducible apply wp_pure
  | with_reducible apply wp_throw
  | with_reducible apply wp_fail
  | (with_reducible apply wp_failIf <;> intro _)
  | with_reducible apply wp_bind
  | with_reducible apply wp_get
  | with_reducible apply wp_mod
  | with_reducible apply wp_catch
  | (with_reducible apply wp_ite <;> intro _)
  | (with_reducible apply wp_rdOr <;> intros)
  | (with_reducible apply wp_wrOr <;> intros)
  | (with_reducible apply wp_wrF <;> intros)
  | (with_reducible apply wp_rdF <;> intros))

/-- Walk through a command as far as possible. -/
macro "cps" : tactic => `(tactic| repeat' (first | cstep | wzeta | (is_match; with_reducible split)))

/-! ### Frames -/

/-- Relations between the states before and after. -/
abbrev FRel := Flash → Ram → Flash → Ram → Prop

/-- Reflexive and transitive. -/
class Pre (R : FRel) : Prop where
  refl : ∀ f r, R f r f r
  trans : ∀ f r f' r' f'' r'', R f r f' r' → R f' r' f'' r'' → R f r f'' r''

/-- However it ends, the command takes a state to one in the relation. -/
def Rel {α : Type} (R : FRel) (m : M α) : Prop :=
  ∀ A f r, wp A m (fun _ f' r' => R f r f' r') (fun _ f' r' => R f r f' r') (fun f' r' => R f r f' r') f r

namespace Rel
variable {α β σ : Type} {R : FRel}

theorem pure [Pre R] (a : α) : Rel R (Pure.pure a : M α) := fun _ f r => wp_pure (Pre.refl f r)
theorem throw [Pre R] (e : Err) : Rel R (MonadExcept.throw e : M α) := fun _ f r => wp_throw (Pre.refl f r)
theorem fail [Pre R] (c : Byte) : Rel R (fail c : M α) := Rel.throw _
theorem failIf [Pre R] (b : Bool) (c : Byte) : Rel R (failIf b c) := fun _ f r =>
  wp_failIf (fun _ => Pre.refl f r) (fun _ => Pre.refl f r)

theorem bind [Pre R] {m : M α} {g : α → M β} (h : Rel R m) (h' : ∀ a, Rel R (g a)) : Rel R (m >>= g) := by
  intro A f r
  apply wp_bind
  apply wp_mono (h A f r)
  · intro a f' r' h1
    apply wp_mono (h' a A f' r')
    · intro _ f'' r'' h2
      exact Pre.trans _ _ _ _ _ _ h1 h2
    · intro _ f'' r'' h2
      exact Pre.trans _ _ _ _ _ _ h1 h2
    · intro f'' r'' h2
      exact Pre.trans _ _ _ _ _ _ h1 h2
  · exact fun _ _ _ h => h
  · exact fun _ _ h => h

theorem get [Pre R] : Rel R (Cmd.get : M Ram) := fun _ f r => wp_get (Pre.refl f r)
theorem mod {g : Ram → Ram} (h : ∀ f r, R f r f (g r)) : Rel R (Cmd.mod g : M Unit) := fun _ f r => wp_mod (h f r)
theorem rdF [Pre R] (look : Flash → Option α) : Rel R (Cmd.rdF look : M (Option α)) := fun _ f r =>
  wp_rdF (fun _ => Pre.refl f r) (fun _ => Pre.refl f r) (fun _ => Pre.refl f r)
theorem rdOr [Pre R] (look : Flash → Option α) (e : Err) : Rel R (Cmd.rdOr look e : M α) := fun _ f r =>
  wp_rdOr (fun _ _ => Pre.refl f r) (fun _ => Pre.refl f r) (fun _ => Pre.refl f r) (fun _ => Pre.refl f r)
theorem wrF [Pre R] {upd : Flash → Option Flash} (h : ∀ f r f', upd f = some f' → R f r f' r) :
    Rel R (Cmd.wrF upd : M Bool) := fun _ f r =>
  wp_wrF (fun _ f' h' => h f r f' h') (fun _ _ => Pre.refl f r) (fun _ => Pre.refl f r) (fun _ => Pre.refl f r)
theorem wrOr [Pre R] {upd : Flash → Option Flash} {e : Err} (h : ∀ f r f', upd f = some f' → R f r f' r) :
    Rel R (Cmd.wrOr upd e : M Unit) := fun _ f r =>
  wp_wrOr (fun f' h' => h f r f' h') (fun _ => Pre.refl f r) (fun _ => Pre.refl f r) (fun _ => Pre.refl f r)
theorem caught {m : M α} (h : Rel R m) : Rel R (Cmd.lift m.run : M _) := fun A f r => wp_catch (h A f r)
theorem ite {c : Prop} [Decidable c] {m n : M α} (h : c → Rel R m) (h' : ¬ c → Rel R n) :
    Rel R (if c then m else n) := by
  by_cases hc : c
  · rw [if_pos hc]; exact h hc
  · rw [if_neg hc]; exact h' hc

theorem rdRec [Pre R] (recs : Flash → Option (List β)) (i : Nat) : Rel R (rdRec recs i) := by
  unfold Ctap.rdRec
  apply Rel.bind (Rel.rdOr _ _)
  intro l
  split
  · exact Rel.throw _
  · exact Rel.pure _

theorem scanUp [Pre R] (recs : Flash → Option (List β)) (body : Nat → β → σ → σ × Bool) (k i : Nat) (s : σ) :
    Rel R (scanUp recs body k i s) := by
  induction k generalizing i s with
  | zero => exact Rel.pure _
  | succ k ih =>
    unfold Ctap.scanUp
    apply Rel.bind (Rel.rdRec _ _)
    intro b
    split
    · exact Rel.pure _
    · exact ih _ _

theorem scanDown [Pre R] (recs : Flash → Option (List β)) (body : Nat → β → σ → σ) (k : Nat) (s : σ) :
    Rel R (scanDown recs body k s) := by
  induction k generalizing s with
  | zero => exact Rel.pure _
  | succ k ih =>
    unfold Ctap.scanDown
    exact Rel.bind (Rel.rdRec _ _) fun b => ih _

theorem mono {R' : FRel} {m : M α} (h : Rel R m) (hR : ∀ f r f' r', R f r f' r' → R' f r f' r') : Rel R' m :=
  fun A f r => wp_mono (h A f r) (fun _ _ _ h => hR _ _ _ _ h) (fun _ _ _ h => hR _ _ _ _ h)
    (fun _ _ h => hR _ _ _ _ h)

/-- Steps of a frame proof that need nothing about the relation. -/
macro "rstep" : tactic => `(tactic| first
  | with_reducible apply Rel.pure
  | with_reducible apply Rel.throw
  | with_reducible apply Rel.fail
  | with_reducible apply Rel.failIf
  | with_reducible apply Rel.get
  | with_reducible apply Rel.rdF
  | with_reducible apply Rel.rdOr
  | with_reducible apply Rel.rdRec
  | with_reducible apply Rel.scanUp
  | with_reducible apply Rel.scanDown
  | (with_reducible apply Rel.bind; rotate_left; intro _; rotate_right)
  | (with_reducible apply Rel.ite <;> intro _)
  | with_reducible apply Rel.mod
  | with_reducible apply Rel.wrOr
  | with_reducible apply Rel.wrF
  | with_reducible apply Rel.caught)

open Lean Elab Tactic in
/-- Reduces `let`s at the head of the command of a frame goal. -/
elab "rzeta" : tactic => do
  let g ← getMainGoal
  let t ← instantiateMVars (← g.getType)
  let args := t.getAppArgs
  let some m := args[2]? | throwError "no command"
  let m' := headNorm m
  if m' == m then throwError "nothing to do"
  replaceMainGoal [← g.change (mkAppN t.getAppFn (args.set! 2 m'))]

open Lean Elab Tactic in
/-- Succeeds if the command of a frame goal (third argument) is a `match`. -/
elab "is_rmatch" : tactic => do
  let t ← instantiateMVars (← (← getMainGoal).getType)
  let some m := t.getAppArgs[2]? | throwError "no command"
  unless ← Meta.isMatcherApp m.headBeta do throwError "not a match"

/-- Walk through a command in a frame proof; `t` closes the calls that are left. -/
macro "rels" t:tacticSeq : tactic => `(tactic| repeat' (first | rstep | rzeta | (is_rmatch; with_reducible split) | ($t)))

end Rel
end Verif.Ctap
