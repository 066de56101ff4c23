import Verif.Base.Parse
/-
Running a computation over a part of flash and RAM inside a larger device.
-/
namespace Verif

/-- A part of a larger state. -/
structure Part (Φ φ : Type) where
  get : Φ → φ
  set : φ → Φ → Φ

/-- Run a storage action on a part of flash and a part of RAM. -/
def FsM.zoom {Φ φ Ρ ρ α : Type} (pf : Part Φ φ) (pr : Part Ρ ρ) (m : FsM φ ρ α) : FsM Φ Ρ α := fun w =>
  match m ⟨pf.get w.flash, pr.get w.ram, w.env⟩ with
  | (o, w') => (o, ⟨pf.set w'.flash w.flash, pr.set w'.ram w.ram, w'.env⟩)

namespace Cmd
variable {Φ φ Ρ ρ ε α β : Type}

/-- Run a command on a part of flash and a part of RAM. -/
def zoom (pf : Part Φ φ) (pr : Part Ρ ρ) (m : Cmd φ ρ ε α) : Cmd Φ Ρ ε α :=
  ExceptT.mk (FsM.zoom pf pr m.run)

theorem wp_zoom {A : Fault → Prop} {pf : Part Φ φ} {pr : Part Ρ ρ} {m : Cmd φ ρ ε α}
    {Q : α → Φ → Ρ → Prop} {E : ε → Φ → Ρ → Prop} {X : Φ → Ρ → Prop} {f : Φ} {r : Ρ}
    (h : wp A m (fun a f' r' => Q a (pf.set f' f) (pr.set r' r)) (fun e f' r' => E e (pf.set f' f) (pr.set r' r))
      (fun f' r' => X (pf.set f' f) (pr.set r' r)) (pf.get f) (pr.get r)) :
    wp A (zoom pf pr m) Q E X f r := by
  intro env henv
  have h1 := h env henv
  show match (FsM.zoom pf pr m.run) ⟨f, r, env⟩ with
    | (none, w) => X w.flash w.ram
    | (some (.error e), w) => E e w.flash w.ram ∧ ∀ n, A (w.env n)
    | (some (.ok a), w) => Q a w.flash w.ram ∧ ∀ n, A (w.env n)
  unfold FsM.zoom
  cases hm : m.run ⟨pf.get f, pr.get r, env⟩ with
  | mk o w =>
    simp only [hm] at h1 ⊢
    cases o with
    | none => exact h1
    | some x => cases x <;> exact h1

/-- Any outcome of a storage action of which nothing is known. -/
theorem wp_lift_any {A : Fault → Prop} {m : FsM φ ρ α}
    {Q : α → φ → ρ → Prop} {E : ε → φ → ρ → Prop} {X : φ → ρ → Prop} {f : φ} {r : ρ}
    (hm : ∀ env : Env, (∀ n, A (env n)) → ∀ n, A ((m ⟨f, r, env⟩).2.env n))
    (hQ : ∀ env : Env, (∀ n, A (env n)) → ∀ a w, m ⟨f, r, env⟩ = (some a, w) → Q a w.flash w.ram)
    (hX : ∀ env : Env, (∀ n, A (env n)) → ∀ w, m ⟨f, r, env⟩ = (none, w) → X w.flash w.ram) :
    wp A (lift m : Cmd φ ρ ε α) Q E X f r := by
  intro env henv
  have h1 := hm env henv
  have h2 := hQ env henv
  have h3 := hX env henv
  show match (match m ⟨f, r, env⟩ with
      | (some a, w') => (some (Except.ok a : Except ε α), w')
      | (none, w') => (none, w')) with
    | (none, w) => X w.flash w.ram
    | (some (.error e), w) => E e w.flash w.ram ∧ ∀ n, A (w.env n)
    | (some (.ok a), w) => Q a w.flash w.ram ∧ ∀ n, A (w.env n)
  cases hm : m ⟨f, r, env⟩ with
  | mk o w =>
    rw [hm] at h1 h2 h3
    cases o with
    | none => exact h3 w rfl
    | some a => exact ⟨h2 a w rfl, h1⟩

theorem lift_bind (m : FsM φ ρ α) (g : α → FsM φ ρ β) :
    (lift (m >>= g) : Cmd φ ρ ε β) = lift m >>= fun a => lift (g a) := by
  have e : ∀ {γ : Type} (n : FsM φ ρ γ) w, (lift n : Cmd φ ρ ε γ).run w = match n w with
      | (some a, w') => (some (Except.ok a), w')
      | (none, w') => (none, w') := fun _ _ => rfl
  apply ExceptT.ext
  funext w
  have hb : ((lift m : Cmd φ ρ ε α) >>= fun a => lift (g a)).run =
      ((lift m : Cmd φ ρ ε α).run >>= fun x => match x with
        | .ok a => (lift (g a) : Cmd φ ρ ε β).run
        | .error e => Pure.pure (.error e)) := rfl
  rw [hb, e, FsM.bind_eq, FsM.bind_eq, e]
  cases m w with
  | mk o w' => cases o <;> rfl

theorem lift_run (n : FsM φ ρ α) (w : World φ ρ) : (lift n : Cmd φ ρ ε α).run w = match n w with
    | (some a, w') => (some (Except.ok a), w')
    | (none, w') => (none, w') := rfl

theorem lift_pure (a : α) : (lift (pure a : FsM φ ρ α) : Cmd φ ρ ε α) = pure a := rfl

theorem lift_ite {c : Prop} [Decidable c] (m n : FsM φ ρ α) :
    (lift (if c then m else n) : Cmd φ ρ ε α) = if c then lift m else lift n := by
  by_cases h : c <;> simp [h]

end Cmd
end Verif
