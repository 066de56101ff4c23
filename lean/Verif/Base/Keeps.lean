import Verif.Base.Moves
/-
What a command may do to memory, however it ends: a relation between the variables before and after.
-/
namespace Verif.Cmd

/-- However the command ends, the variables before and after it are in the relation. -/
def Keeps {φ ρ ε α : Type} (R : ρ → ρ → Prop) (m : Cmd φ ρ ε α) : Prop :=
  ∀ w : World φ ρ, R w.ram (m.run w).2.ram

namespace Keeps
variable {φ ρ ε α β : Type} {R : ρ → ρ → Prop}

theorem pure [PreOrd R] (a : α) : Keeps R (Pure.pure a : Cmd φ ρ ε α) := fun w => PreOrd.refl w.ram
theorem throw [PreOrd R] (e : ε) : Keeps R (MonadExcept.throw e : Cmd φ ρ ε α) := fun w => PreOrd.refl w.ram

theorem bind [PreOrd R] {m : Cmd φ ρ ε α} {g : α → Cmd φ ρ ε β} (h : Keeps R m) (h' : ∀ a, Keeps R (g a)) :
    Keeps R (m >>= g) := by
  intro w
  have hb : (m >>= g).run = (m.run >>= fun x => match x with
      | .ok a => (g a).run
      | .error e => Pure.pure (.error e)) := by
    rfl
  rw [hb, FsM.bind_eq]
  have h1 := h w
  cases hm : m.run w with
  | mk o w' =>
    rw [hm] at h1
    cases o with
    | none => exact h1
    | some x =>
      cases x with
      | error e => exact h1
      | ok a => exact PreOrd.trans h1 (h' a w')

theorem get [PreOrd R] : Keeps R (Cmd.get : Cmd φ ρ ε ρ) := fun w => PreOrd.refl w.ram
theorem mod {g : ρ → ρ} (h : ∀ r, R r (g r)) : Keeps R (Cmd.mod g : Cmd φ ρ ε Unit) := fun w => h w.ram

theorem rdF [PreOrd R] (look : φ → Option α) : Keeps R (Cmd.rdF look : Cmd φ ρ ε (Option α)) := by
  intro w
  obtain ⟨f, r, env⟩ := w
  cases he : env 0 <;> simp [Cmd.rdF, lift, ExceptT.run, ExceptT.mk, FsM.read, he] <;> exact PreOrd.refl r

theorem wrF [PreOrd R] (upd : φ → Option φ) :
    Keeps R (Cmd.wrF upd : Cmd φ ρ ε Bool) := by
  intro w
  obtain ⟨f, r, env⟩ := w
  cases he : env 0 with
  | ok =>
    cases hu : upd f with
    | none => simp [Cmd.wrF, lift, ExceptT.run, ExceptT.mk, FsM.write, he, hu]; exact PreOrd.refl r
    | some f' => simp [Cmd.wrF, lift, ExceptT.run, ExceptT.mk, FsM.write, he, hu]; exact PreOrd.refl r
  | fail => simp [Cmd.wrF, lift, ExceptT.run, ExceptT.mk, FsM.write, he]; exact PreOrd.refl r
  | cut => simp [Cmd.wrF, lift, ExceptT.run, ExceptT.mk, FsM.write, he]; exact PreOrd.refl r

theorem rdOr [PreOrd R] (look : φ → Option α) (e : ε) : Keeps R (Cmd.rdOr look e : Cmd φ ρ ε α) := by
  unfold Cmd.rdOr
  refine bind (rdF look) fun a => ?_
  cases a
  · exact throw _
  · exact pure _

theorem wrOr [PreOrd R] (upd : φ → Option φ) (e : ε) :
    Keeps R (Cmd.wrOr upd e : Cmd φ ρ ε Unit) := by
  unfold Cmd.wrOr
  refine bind (wrF upd) fun b => ?_
  cases b
  · exact throw _
  · exact pure _

theorem ite {c : Prop} [Decidable c] {m n : Cmd φ ρ ε α} (h : c → Keeps R m) (h' : ¬ c → Keeps R n) :
    Keeps R (if c then m else n) := by
  by_cases hc : c
  · rw [if_pos hc]; exact h hc
  · rw [if_neg hc]; exact h' hc

theorem mem [PreOrd R] (p : C α) : Keeps R (Cmd.mem p : Cmd φ ρ Reply α) := by
  unfold Cmd.mem
  split
  · exact throw _
  · exact pure _

theorem parse [PreOrd R] (p : PE SW α) : Keeps R (Cmd.parse p : Cmd φ ρ Reply α) := by
  unfold Cmd.parse
  split
  · exact throw _
  · exact throw _
  · exact pure _

theorem zoom {Φ Ρ : Type} {S : Ρ → Ρ → Prop} {pf : Part Φ φ} {pr : Part Ρ ρ} {m : Cmd φ ρ ε α}
    (h : ∀ r p, S r (pr.set p r)) : Keeps S (Cmd.zoom pf pr m) := fun w => h w.ram _

theorem mono {S : ρ → ρ → Prop} {m : Cmd φ ρ ε α} (h : Keeps R m) (hR : ∀ f f', R f f' → S f f') : Keeps S m :=
  fun w => hR _ _ (h w)

/-- One step into a command. -/
macro "kstep" : tactic => `(tactic| first
  | with_reducible apply Keeps.pure
  | with_reducible apply Keeps.throw
  | with_reducible apply Keeps.get
  | with_reducible apply Keeps.mod
  | with_reducible apply Keeps.rdF
  | with_reducible apply Keeps.rdOr
  | with_reducible apply Keeps.mem
  | with_reducible apply Keeps.parse
  | (with_reducible apply Keeps.bind; rotate_left; intro _; rotate_right)
  | (with_reducible apply Keeps.ite <;> intro _)
  | with_reducible apply Keeps.wrOr
  | with_reducible apply Keeps.wrF)

/-- Walk through a command; `t` closes the calls that are left. -/
macro "kps" t:tacticSeq : tactic =>
  `(tactic| repeat' (first | kstep | wzeta | (is_match; with_reducible split) | ($t)))

end Keeps

/-- The same as a weakest precondition. -/
theorem Keeps.wp {φ ρ ε α : Type} {R : ρ → ρ → Prop} {A : Fault → Prop} {m : Cmd φ ρ ε α} (h : Keeps R m) {f : φ} {r : ρ}
    {Q : α → φ → ρ → Prop} {E : ε → φ → ρ → Prop} {X : φ → ρ → Prop} (hw : wp A m Q E X f r) :
    wp A m (fun a f' r' => Q a f' r' ∧ R r r') (fun e f' r' => E e f' r' ∧ R r r') (fun f' r' => X f' r' ∧ R r r') f r := by
  intro env henv
  have h1 := h ⟨f, r, env⟩
  have h2 := hw env henv
  cases hm : m.run ⟨f, r, env⟩ with
  | mk o w =>
    rw [hm] at h1 h2
    cases o with
    | none => exact ⟨h2, h1⟩
    | some y => cases y <;> exact ⟨⟨h2.1, h1⟩, h2.2⟩

/-- With any fault at any point, nothing else need be known. -/
theorem Keeps.wpAny {φ ρ ε α : Type} {R : ρ → ρ → Prop} {m : Cmd φ ρ ε α} (h : Keeps R m) {f : φ} {r : ρ} :
    Cmd.wp anyFault m (fun _ _ r' => R r r') (fun _ _ r' => R r r') (fun _ r' => R r r') f r := by
  intro env henv
  have h1 := h ⟨f, r, env⟩
  cases hm : m.run ⟨f, r, env⟩ with
  | mk o w =>
    rw [hm] at h1
    cases o with
    | none => exact h1
    | some y => cases y <;> exact ⟨h1, fun _ => trivial⟩

end Verif.Cmd
