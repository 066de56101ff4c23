import Verif.Base.Parse
/-
Calculation rules for parsers and commands.
-/
namespace Verif

@[simp] theorem PE.throw_bind {ε α β : Type} (e : ε) (f : α → PE ε β) :
    ((throw e : PE ε α) >>= f) = throw e := rfl

@[simp] theorem PE.pure_bind {ε α β : Type} (a : α) (f : α → PE ε β) :
    ((pure a : PE ε α) >>= f) = f a := rfl

@[simp] theorem Cmd.throw_bind {φ ρ ε α β : Type} (e : ε) (f : α → Cmd φ ρ ε β) :
    ((throw e : Cmd φ ρ ε α) >>= f) = throw e := rfl

@[simp] theorem Cmd.pure_bind {φ ρ ε α β : Type} (a : α) (f : α → Cmd φ ρ ε β) :
    ((pure a : Cmd φ ρ ε α) >>= f) = f a := rfl

/-- The parser returns `a`. -/
def PE.Ok {ε α : Type} (m : PE ε α) (a : α) : Prop := m.run = .ok (.ok a)

namespace PE
variable {ε α β : Type}

theorem ok_bind_iff {m : PE ε α} {f : α → PE ε β} {b : β} :
    Ok (m >>= f) b ↔ ∃ a, Ok m a ∧ Ok (f a) b := by
  unfold Ok
  rw [ExceptT.run_bind]
  constructor
  · intro h
    cases hm : m.run with
    | error u => rw [hm] at h; cases h
    | ok r =>
      rw [hm] at h
      cases r with
      | error e => cases h
      | ok a => exact ⟨a, rfl, h⟩
  · rintro ⟨a, h1, h2⟩
    rw [h1]; exact h2

theorem ok_pure_iff {a b : α} : Ok (pure a : PE ε α) b ↔ a = b :=
  ⟨fun h => (by cases h; rfl), fun h => (by cases h; rfl)⟩

theorem ok_throw_iff {e : ε} {b : α} : Ok (throw e : PE ε α) b ↔ False := by
  constructor
  · intro h
    have h' : (Except.ok (Except.error e) : Except Ub (Except ε α)) = .ok (.ok b) := h
    cases h'
  · exact False.elim

theorem ok_ite_iff {c : Prop} [Decidable c] {m n : PE ε α} {a : α} :
    Ok (if c then m else n) a ↔ (c ∧ Ok m a) ∨ (¬ c ∧ Ok n a) := by
  by_cases h : c <;> simp [h]

theorem ok_lift_iff {m : C α} {a : α} : Ok (liftM m : PE ε α) a ↔ m = .ok a := by
  cases m with
  | error u => exact ⟨fun h => (by cases h), fun h => (by cases h)⟩
  | ok b => exact ⟨fun h => (by cases h; rfl), fun h => (by cases h; rfl)⟩

end PE

theorem rd_eq_ok {d : Bytes} {i : Nat} {b : Byte} : rd d i = .ok b ↔ d[i]? = some b := by
  unfold rd
  cases d[i]? <;> simp

theorem rdRange_eq_ok {d x : Bytes} {off n : Nat} :
    rdRange d off n = .ok x ↔ off + n ≤ d.length ∧ (d.drop off).take n = x := by
  unfold rdRange
  by_cases h : off + n ≤ d.length <;> simp [h]

theorem split_len {α : Type} {d : List α} {n : Nat} (h : n ≤ d.length) :
    ∃ p q, d = p ++ q ∧ p.length = n := ⟨d.take n, d.drop n, by simp, by simp; omega⟩

theorem toNat_of_len {n : Nat} {b : Byte} (h : n = b.toNat) : b = UInt8.ofNat n := by
  subst h; simp

/-- Expands "the parser returns a value" into its conditions. -/
macro "parse_ok" "[" ds:Lean.Parser.Tactic.simpLemma,* "]" : tactic =>
  `(tactic| simp only [$ds,*, PE.throw_bind, PE.ok_bind_iff, PE.ok_pure_iff, PE.ok_throw_iff,
      PE.ok_ite_iff, PE.ok_lift_iff, rd_eq_ok, rdRange_eq_ok, and_false, false_or,
      bne_iff_ne, beq_iff_eq, ne_eq, Decidable.not_not, Bool.or_eq_true, Bool.and_eq_true, not_or, decide_eq_true_eq])

/-- Arithmetic side conditions of `safe_tac`. -/
macro "safe_omega" : tactic =>
  `(tactic| first | omega | (simp_all; done) | (simp_all; omega))

/-- Closes `Safe` goals of straight-line parsers. -/
macro "safe_tac" "[" ds:Lean.Parser.Tactic.simpLemma,* "]" : tactic =>
  `(tactic| (simp only [$ds,*, PE.throw_bind, bne_iff_ne, beq_iff_eq, ne_eq]
             repeat' first
               | exact Safe.throw
               | exact Safe.pure trivial
               | (refine Safe.ite ?_ ?_ <;> intro _)
               | (refine Safe.bind (Safe.rd' (by safe_omega)) ?_; intro _ _)
               | (refine Safe.bind (Safe.rdRange (by safe_omega)) ?_; intro _ _)
               | (refine Safe.mono (Safe.rdRange (by safe_omega)) ?_; intro _ _; trivial)))

/-- Every code the parser can leave with satisfies `S`. -/
def Throws {ε α : Type} (S : ε → Prop) (m : PE ε α) : Prop := ∀ e, m.run = .ok (.error e) → S e

section
variable {ε α β : Type} {S : ε → Prop}

theorem Throws.pure {a : α} : Throws S (Pure.pure a : PE ε α) := fun e h => by
  have h' : (Except.ok (Except.ok a) : Except Ub (Except ε α)) = .ok (.error e) := h
  cases h'

theorem Throws.throw {e : ε} (h : S e) : Throws S (MonadExcept.throw e : PE ε α) := fun e' h' => by
  have h' : (Except.ok (Except.error e) : Except Ub (Except ε α)) = .ok (.error e') := h'
  cases h'; exact h

theorem Throws.lift {m : C α} : Throws S (liftM m : PE ε α) := fun e h => by
  cases m with
  | error u =>
    have h' : (Except.error u : Except Ub (Except ε α)) = .ok (.error e) := h
    cases h'
  | ok a =>
    have h' : (Except.ok (Except.ok a) : Except Ub (Except ε α)) = .ok (.error e) := h
    cases h'

theorem Throws.bind {m : PE ε α} {f : α → PE ε β} (h : Throws S m) (hf : ∀ a, Throws S (f a)) :
    Throws S (m >>= f) := by
  intro e he
  rw [ExceptT.run_bind] at he
  cases hm : m.run with
  | error u => rw [hm] at he; cases he
  | ok r =>
    rw [hm] at he
    cases r with
    | error e' =>
      have he : (Except.ok (Except.error e') : Except Ub (Except ε β)) = .ok (.error e) := he
      cases he; exact h _ hm
    | ok a => exact hf a e he

theorem Throws.ite {c : Prop} [Decidable c] {m n : PE ε α} (h : Throws S m) (h' : Throws S n) :
    Throws S (if c then m else n) := by
  by_cases hc : c
  · rw [if_pos hc]; exact h
  · rw [if_neg hc]; exact h'

end

/-- Closes `Throws` goals of straight-line parsers. -/
macro "throws_tac" "[" ds:Lean.Parser.Tactic.simpLemma,* "]" : tactic =>
  `(tactic| (simp only [$ds,*, PE.throw_bind]
             repeat' first
               | exact Throws.throw (by decide)
               | exact Throws.pure
               | exact Throws.lift
               | refine Throws.ite ?_ ?_
               | refine Throws.bind Throws.lift ?_
               | refine Throws.bind ?_ ?_
               | intro _))

end Verif
