import Verif.Base.Tac
/-
What a command may do to flash, however it ends: a relation between the contents before and after.
-/
namespace Verif.Cmd

/-- Reflexive and transitive. -/
class PreOrd {φ : Type} (R : φ → φ → Prop) : Prop where
  refl : ∀ f, R f f
  trans : ∀ {f g h}, R f g → R g h → R f h

/-- However the command ends, the contents of flash before and after it are in the relation. -/
def Moves {φ ρ ε α : Type} (R : φ → φ → Prop) (m : Cmd φ ρ ε α) : Prop :=
  ∀ w : World φ ρ, R w.flash (m.run w).2.flash

namespace Moves
variable {φ ρ ε α β : Type} {R : φ → φ → Prop}

theorem pure [PreOrd R] (a : α) : Moves R (Pure.pure a : Cmd φ ρ ε α) := fun w => PreOrd.refl w.flash
theorem throw [PreOrd R] (e : ε) : Moves R (MonadExcept.throw e : Cmd φ ρ ε α) := fun w => PreOrd.refl w.flash

theorem bind [PreOrd R] {m : Cmd φ ρ ε α} {g : α → Cmd φ ρ ε β} (h : Moves R m) (h' : ∀ a, Moves R (g a)) :
    Moves R (m >>= g) := by
  intro w
  have hb : (m >>= g).run = (m.run >>= fun x => match x with
      | .ok a => (g a).run
      | .error e => Pure.pure (.error e)) := by
    rfl
  rw [hb, FsM.bind_eq]
  have h1 := h w
  cases hm : m.run w with
  | mk o w' =>
    rw [hm] at h1
    cases o with
    | none => exact h1
    | some x =>
      cases x with
      | error e => exact h1
      | ok a => exact PreOrd.trans h1 (h' a w')

theorem get [PreOrd R] : Moves R (Cmd.get : Cmd φ ρ ε ρ) := fun w => PreOrd.refl w.flash
theorem mod [PreOrd R] (g : ρ → ρ) : Moves R (Cmd.mod g : Cmd φ ρ ε Unit) := fun w => PreOrd.refl w.flash

theorem rdF [PreOrd R] (look : φ → Option α) : Moves R (Cmd.rdF look : Cmd φ ρ ε (Option α)) := by
  intro w
  obtain ⟨f, r, env⟩ := w
  cases he : env 0 <;> simp [Cmd.rdF, lift, ExceptT.run, ExceptT.mk, FsM.read, he] <;> exact PreOrd.refl f

theorem wrF [PreOrd R] {upd : φ → Option φ} (h : ∀ f f', upd f = some f' → R f f') :
    Moves R (Cmd.wrF upd : Cmd φ ρ ε Bool) := by
  intro w
  obtain ⟨f, r, env⟩ := w
  cases he : env 0 with
  | ok =>
    cases hu : upd f with
    | none => simp [Cmd.wrF, lift, ExceptT.run, ExceptT.mk, FsM.write, he, hu]; exact PreOrd.refl f
    | some f' => simp [Cmd.wrF, lift, ExceptT.run, ExceptT.mk, FsM.write, he, hu]; exact h f f' hu
  | fail => simp [Cmd.wrF, lift, ExceptT.run, ExceptT.mk, FsM.write, he]; exact PreOrd.refl f
  | cut => simp [Cmd.wrF, lift, ExceptT.run, ExceptT.mk, FsM.write, he]; exact PreOrd.refl f

theorem rdOr [PreOrd R] (look : φ → Option α) (e : ε) : Moves R (Cmd.rdOr look e : Cmd φ ρ ε α) := by
  unfold Cmd.rdOr
  refine bind (rdF look) fun a => ?_
  cases a
  · exact throw _
  · exact pure _

theorem wrOr [PreOrd R] {upd : φ → Option φ} {e : ε} (h : ∀ f f', upd f = some f' → R f f') :
    Moves R (Cmd.wrOr upd e : Cmd φ ρ ε Unit) := by
  unfold Cmd.wrOr
  refine bind (wrF h) fun b => ?_
  cases b
  · exact throw _
  · exact pure _

theorem ite {c : Prop} [Decidable c] {m n : Cmd φ ρ ε α} (h : c → Moves R m) (h' : ¬ c → Moves R n) :
    Moves R (if c then m else n) := by
  by_cases hc : c
  · rw [if_pos hc]; exact h hc
  · rw [if_neg hc]; exact h' hc

theorem mem [PreOrd R] (p : C α) : Moves R (Cmd.mem p : Cmd φ ρ Reply α) := by
  unfold Cmd.mem
  split
  · exact throw _
  · exact pure _

theorem parse [PreOrd R] (p : PE SW α) : Moves R (Cmd.parse p : Cmd φ ρ Reply α) := by
  unfold Cmd.parse
  split
  · exact throw _
  · exact throw _
  · exact pure _

theorem zoom {Φ Ρ : Type} {S : Φ → Φ → Prop} {pf : Part Φ φ} {pr : Part Ρ ρ} {m : Cmd φ ρ ε α}
    (h : ∀ f p, S f (pf.set p f)) : Moves S (Cmd.zoom pf pr m) := fun w => h w.flash _

theorem mono {S : φ → φ → Prop} {m : Cmd φ ρ ε α} (h : Moves R m) (hR : ∀ f f', R f f' → S f f') : Moves S m :=
  fun w => hR _ _ (h w)

/-- One step into a command. -/
macro "mstep" : tactic => `(tactic| first
  | with_reducible apply Moves.pure
  | with_reducible apply Moves.throw
  | with_reducible apply Moves.get
  | with_reducible apply Moves.mod
  | with_reducible apply Moves.rdF
  | with_reducible apply Moves.rdOr
  | with_reducible apply Moves.mem
  | with_reducible apply Moves.parse
  | (with_reducible apply Moves.bind; rotate_left; intro _; rotate_right)
  | (with_reducible apply Moves.ite <;> intro _)
  | with_reducible apply Moves.wrOr
  | with_reducible apply Moves.wrF)

/-- Walk through a command; `t` closes the calls that are left. -/
macro "mvs" t:tacticSeq : tactic =>
  `(tactic| repeat' (first | mstep | wzeta | (is_match; with_reducible split) | ($t)))

end Moves

/-- A command and what is known of its effect on flash. -/
theorem Moves.run {φ ρ ε : Type} {R : φ → φ → Prop} {m : Cmd φ ρ ε ε} (h : Moves R m) (f : φ) (r : ρ) (env : Env) :
    R f (runCmd m f r env).1 := by
  have h1 := h ⟨f, r, env⟩
  unfold runCmd
  cases hm : m.run ⟨f, r, env⟩ with
  | mk o w =>
    rw [hm] at h1
    cases o with
    | none => exact h1
    | some x => cases x <;> exact h1

/-! ### Code without exits -/

/-- The same for code that cannot leave early. -/
def MovesF {φ ρ α : Type} (R : φ → φ → Prop) (m : FsM φ ρ α) : Prop := ∀ w : World φ ρ, R w.flash (m w).2.flash

namespace MovesF
variable {φ ρ ε α β : Type} {R : φ → φ → Prop}

theorem pure [PreOrd R] (a : α) : MovesF R (Pure.pure a : FsM φ ρ α) := fun w => PreOrd.refl w.flash
theorem modRam [PreOrd R] (g : ρ → ρ) : MovesF R (FsM.modRam g : FsM φ ρ Unit) := fun w => PreOrd.refl w.flash

theorem bind [PreOrd R] {m : FsM φ ρ α} {g : α → FsM φ ρ β} (h : MovesF R m) (h' : ∀ a, MovesF R (g a)) :
    MovesF R (m >>= g) := by
  intro w
  rw [FsM.bind_eq]
  have h1 := h w
  cases hm : m w with
  | mk o w' =>
    rw [hm] at h1
    cases o with
    | none => exact h1
    | some a => exact PreOrd.trans h1 (h' a w')

theorem ite {c : Prop} [Decidable c] {m n : FsM φ ρ α} (h : MovesF R m) (h' : MovesF R n) : MovesF R (if c then m else n) := by
  by_cases hc : c
  · rw [if_pos hc]; exact h
  · rw [if_neg hc]; exact h'

theorem read [PreOrd R] (look : φ → Option α) : MovesF R (FsM.read look : FsM φ ρ (Option α)) := by
  intro w
  obtain ⟨f, r, env⟩ := w
  cases he : env 0 <;> simp [FsM.read, he] <;> exact PreOrd.refl f

theorem write [PreOrd R] {upd : φ → Option φ} (h : ∀ f f', upd f = some f' → R f f') :
    MovesF R (FsM.write upd : FsM φ ρ Bool) := by
  intro w
  obtain ⟨f, r, env⟩ := w
  cases he : env 0 with
  | ok =>
    cases hu : upd f with
    | none => simp [FsM.write, he, hu]; exact PreOrd.refl f
    | some f' => simp [FsM.write, he, hu]; exact h f f' hu
  | fail => simp [FsM.write, he]; exact PreOrd.refl f
  | cut => simp [FsM.write, he]; exact PreOrd.refl f

theorem lift {m : FsM φ ρ α} (h : MovesF R m) : Moves R (Cmd.lift m : Cmd φ ρ ε α) := by
  intro w
  have h1 := h w
  rw [lift_run]
  cases hm : m w with
  | mk o w' =>
    rw [hm] at h1
    cases o <;> exact h1

/-- Walk through code without exits; `t` closes what is left. -/
macro "mvf" t:tacticSeq : tactic =>
  `(tactic| repeat' (first
    | with_reducible apply MovesF.pure
    | with_reducible apply MovesF.modRam
    | with_reducible apply MovesF.read
    | (with_reducible apply MovesF.bind; rotate_left; intro _; rotate_right)
    | with_reducible apply MovesF.ite
    | with_reducible apply MovesF.write
    | ($t)
    | with_reducible split))

end MovesF

/-- A part moves, the rest stays. -/
theorem Moves.zoomed {φ ρ Φ Ρ ε α : Type} {R : φ → φ → Prop} {S : Φ → Φ → Prop} {pf : Part Φ φ} {pr : Part Ρ ρ} {m : Cmd φ ρ ε α}
    (h : Moves R m) (hS : ∀ f p, R (pf.get f) p → S f (pf.set p f)) : Moves S (Cmd.zoom pf pr m) :=
  fun w => hS w.flash _ (h ⟨pf.get w.flash, pr.get w.ram, w.env⟩)

end Verif.Cmd
