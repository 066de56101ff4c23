import Verif.Base.Mem
import Verif.Base.Cmd
/-
Parsers over command data (undefined behaviour, early exit with a code, or a value), status words,
and the replies of applets.
-/
namespace Verif

/-- Parser monad: undefined behaviour, an error code, or a value. -/
abbrev PE (ε α : Type) := ExceptT ε (Except Ub) α

/-- Status words (`/repo/include/apdu.h:25-45`). -/
abbrev SW := Nat
namespace SW
abbrev ok : SW := 0x9000
abbrev more : SW := 0x61FF
abbrev terminated : SW := 0x6285
abbrev pinRetries : SW := 0x63C0
abbrev wrongLength : SW := 0x6700
abbrev unable : SW := 0x6900
abbrev security : SW := 0x6982
abbrev blocked : SW := 0x6983
abbrev dataInvalid : SW := 0x6984
abbrev conditions : SW := 0x6985
abbrev notAllowed : SW := 0x6986
abbrev wrongData : SW := 0x6A80
abbrev fileNotFound : SW := 0x6A82
abbrev noSpace : SW := 0x6A84
abbrev wrongP1P2 : SW := 0x6A86
abbrev refNotFound : SW := 0x6A88
abbrev insNotSupported : SW := 0x6D00
abbrev claNotSupported : SW := 0x6E00
abbrev checkingError : SW := 0x6F00
abbrev receiving : SW := 0x6600
end SW

/-- What an applet answers to a command; `ub` when it has undefined behaviour. -/
inductive Reply where
  | resp (data : Bytes) (sw : SW)
  | ub (u : Ub)
  deriving DecidableEq, Repr

/-- `EXCEPT(sw)` (`/repo/include/apdu.h:60-64`) with no response data. -/
abbrev Reply.sw (s : SW) : Reply := .resp [] s

/-- A parser of command data inside a command. -/
def Cmd.parse {φ ρ α : Type} (p : PE SW α) : Cmd φ ρ Reply α :=
  match p.run with
  | .error u => throw (.ub u)
  | .ok (.error sw) => throw (.sw sw)
  | .ok (.ok a) => pure a

/-- An access that may be undefined behaviour inside a command. -/
def Cmd.mem {φ ρ α : Type} (p : C α) : Cmd φ ρ Reply α :=
  match p with
  | .error u => throw (.ub u)
  | .ok a => pure a

/-- The parser runs without undefined behaviour and its result, if any, satisfies `Q`. -/
def Safe {ε α : Type} (m : PE ε α) (Q : α → Prop) : Prop :=
  ∃ r, m.run = .ok r ∧ ∀ a, r = .ok a → Q a

section
variable {ε : Type}

theorem Safe.pure {α : Type} {a : α} {Q : α → Prop} (h : Q a) : Safe (pure a : PE ε α) Q :=
  ⟨.ok a, rfl, fun _ e => by cases e; exact h⟩

theorem Safe.throw {α : Type} {e : ε} {Q : α → Prop} : Safe (throw e : PE ε α) Q :=
  ⟨.error e, rfl, fun _ h => by cases h⟩

theorem Safe.bind {α β : Type} {m : PE ε α} {f : α → PE ε β} {Q : α → Prop} {R : β → Prop}
    (h : Safe m Q) (hf : ∀ a, Q a → Safe (f a) R) : Safe (m >>= f) R := by
  obtain ⟨r, hr, hQ⟩ := h
  cases r with
  | error e =>
    refine ⟨.error e, ?_, fun _ h => by cases h⟩
    show ExceptT.run (m >>= f) = _
    rw [ExceptT.run_bind, hr]; rfl
  | ok a =>
    obtain ⟨r', hr', hQ'⟩ := hf a (hQ a rfl)
    refine ⟨r', ?_, hQ'⟩
    rw [ExceptT.run_bind, hr]
    exact hr'

theorem Safe.lift {α : Type} {m : C α} {a : α} {Q : α → Prop} (h : m = .ok a) (hQ : Q a) :
    Safe (liftM m : PE ε α) Q :=
  ⟨.ok a, by rw [h]; rfl, fun _ e => by cases e; exact hQ⟩

theorem Safe.ite {α : Type} {c : Prop} [Decidable c] {m n : PE ε α} {Q : α → Prop}
    (h : c → Safe m Q) (h' : ¬ c → Safe n Q) : Safe (if c then m else n) Q := by
  by_cases hc : c
  · rw [if_pos hc]; exact h hc
  · rw [if_neg hc]; exact h' hc

theorem Safe.mono {α : Type} {m : PE ε α} {Q R : α → Prop} (h : Safe m Q) (hq : ∀ a, Q a → R a) :
    Safe m R := by
  obtain ⟨r, h1, h2⟩ := h
  exact ⟨r, h1, fun a e => hq a (h2 a e)⟩

theorem Safe.rd {mem : Bytes} {off : Nat} {Q : Byte → Prop} (h : off < mem.length) (hQ : Q mem[off]) :
    Safe (liftM (Verif.rd mem off) : PE ε Byte) Q :=
  Safe.lift (rd_ok h) hQ

theorem Safe.rd' {mem : Bytes} {off : Nat} (h : off < mem.length) :
    Safe (liftM (Verif.rd mem off) : PE ε Byte) (fun b => mem[off]? = some b) :=
  Safe.lift (rd_ok h) (by simp [h])

theorem Safe.rdRange {mem : Bytes} {off n : Nat} (h : off + n ≤ mem.length) :
    Safe (liftM (Verif.rdRange mem off n) : PE ε Bytes) (fun d => d = (mem.drop off).take n ∧ d.length = n) :=
  Safe.lift (rdRange_ok h) ⟨rfl, by simp; omega⟩

theorem Cmd.wp_parse {φ ρ α : Type} {A : Fault → Prop} {p : PE SW α} {P : α → Prop}
    {Q : α → φ → ρ → Prop} {E : Reply → φ → ρ → Prop} {X : φ → ρ → Prop} {f : φ} {r : ρ}
    (hs : Safe p P) (hQ : ∀ a, p.run = .ok (.ok a) → P a → Q a f r)
    (hE : ∀ sw, p.run = .ok (.error sw) → E (.sw sw) f r) :
    wp A (Cmd.parse p) Q E X f r := by
  obtain ⟨o, ho, hP⟩ := hs
  unfold Cmd.parse
  rw [ho]
  cases o with
  | error sw => exact wp_throw (hE sw ho)
  | ok a => exact wp_pure (hQ a ho (hP a rfl))

/-- As `wp_parse`, without knowing that the parser is safe. -/
theorem Cmd.wp_parse' {φ ρ α : Type} {A : Fault → Prop} {p : PE SW α}
    {Q : α → φ → ρ → Prop} {E : Reply → φ → ρ → Prop} {X : φ → ρ → Prop} {f : φ} {r : ρ}
    (hQ : ∀ a, p.run = .ok (.ok a) → Q a f r)
    (hE : ∀ sw, p.run = .ok (.error sw) → E (.sw sw) f r)
    (hU : ∀ u, p.run = .error u → E (.ub u) f r) :
    wp A (Cmd.parse p) Q E X f r := by
  unfold Cmd.parse
  split
  · exact wp_throw (hU _ (by assumption))
  · exact wp_throw (hE _ (by assumption))
  · exact wp_pure (hQ _ (by assumption))

end
end Verif
