import Verif.Base.Storage
/-
Commands with early exit over the storage monad, and a weakest-precondition calculus for them.
-/
namespace Verif

/-- A command over flash `φ` and RAM `ρ` that may leave early with an `ε` (C `EXCEPT(..)`/`return`). -/
abbrev Cmd (φ ρ ε α : Type) := ExceptT ε (FsM φ ρ) α

namespace Cmd
variable {φ ρ ε α β : Type}

/-- A storage action inside a command. -/
def lift (m : FsM φ ρ α) : Cmd φ ρ ε α := ExceptT.mk fun w =>
  match m w with
  | (some a, w') => (some (.ok a), w')
  | (none, w') => (none, w')

/-- Read volatile memory. -/
def get : Cmd φ ρ ε ρ := lift FsM.getRam
/-- Change volatile memory. -/
def mod (f : ρ → ρ) : Cmd φ ρ ε Unit := lift (FsM.modRam f)
/-- A file-system read; `none` is a negative return code. -/
def rdF (look : φ → Option α) : Cmd φ ρ ε (Option α) := lift (FsM.read look)
/-- A file-system write; `false` is a negative return code. -/
def wrF (upd : φ → Option φ) : Cmd φ ρ ε Bool := lift (FsM.write upd)
/-- A read whose failure leaves the command with `e`. -/
def rdOr (look : φ → Option α) (e : ε) : Cmd φ ρ ε α := do
  match ← rdF look with
  | none => throw e
  | some a => pure a
/-- A write whose failure leaves the command with `e`. -/
def wrOr (upd : φ → Option φ) (e : ε) : Cmd φ ρ ε Unit := do
  if ← wrF upd then pure () else throw e

/-- `wp A m Q E X f r`: started in flash `f` and RAM `r` under any fault schedule made of faults in
`A`, `m` ends normally with `Q`, leaves early with `E`, or is cut off with `X`. -/
def wp (A : Fault → Prop) (m : Cmd φ ρ ε α) (Q : α → φ → ρ → Prop) (E : ε → φ → ρ → Prop)
    (X : φ → ρ → Prop) (f : φ) (r : ρ) : Prop :=
  ∀ env : Env, (∀ n, A (env n)) →
    match m.run ⟨f, r, env⟩ with
    | (none, w) => X w.flash w.ram
    | (some (.error e), w) => E e w.flash w.ram ∧ ∀ n, A (w.env n)
    | (some (.ok a), w) => Q a w.flash w.ram ∧ ∀ n, A (w.env n)

variable {A : Fault → Prop} {E : ε → φ → ρ → Prop} {X : φ → ρ → Prop} {f : φ} {r : ρ}

theorem wp_pure {a : α} {Q : α → φ → ρ → Prop} (h : Q a f r) :
    wp A (pure a : Cmd φ ρ ε α) Q E X f r := fun _ henv => ⟨h, henv⟩

theorem wp_throw {e : ε} {Q : α → φ → ρ → Prop} (h : E e f r) :
    wp A (throw e : Cmd φ ρ ε α) Q E X f r := fun _ henv => ⟨h, henv⟩

theorem wp_bind {m : Cmd φ ρ ε α} {g : α → Cmd φ ρ ε β} {Q : β → φ → ρ → Prop}
    (h : wp A m (fun a f' r' => wp A (g a) Q E X f' r') E X f r) :
    wp A (m >>= g) Q E X f r := by
  intro env henv
  have h1 := h env henv
  have hb : (m >>= g).run = (m.run >>= fun x => match x with
      | .ok a => (g a).run
      | .error e => Pure.pure (.error e)) := by
    rfl
  rw [hb]
  simp only [FsM.bind_eq]
  cases hm : m.run ⟨f, r, env⟩ with
  | mk o w =>
    rw [hm] at h1
    cases o with
    | none => exact h1
    | some x =>
      cases x with
      | error e => exact h1
      | ok a =>
        obtain ⟨h2, h3⟩ := h1
        exact h2 w.env h3

theorem wp_mono {m : Cmd φ ρ ε α} {Q Q' : α → φ → ρ → Prop} {E' : ε → φ → ρ → Prop}
    {X' : φ → ρ → Prop} (h : wp A m Q E X f r)
    (hQ : ∀ a f r, Q a f r → Q' a f r) (hE : ∀ e f r, E e f r → E' e f r)
    (hX : ∀ f r, X f r → X' f r) : wp A m Q' E' X' f r := by
  intro env henv
  have h1 := h env henv
  cases hm : m.run ⟨f, r, env⟩ with
  | mk o w =>
    rw [hm] at h1
    cases o with
    | none => exact hX _ _ h1
    | some x =>
      cases x with
      | error e => exact ⟨hE _ _ _ h1.1, h1.2⟩
      | ok a => exact ⟨hQ _ _ _ h1.1, h1.2⟩

theorem wp_get {Q : ρ → φ → ρ → Prop} (h : Q r f r) :
    wp A (get : Cmd φ ρ ε ρ) Q E X f r := fun _ henv => ⟨h, henv⟩

theorem wp_mod {g : ρ → ρ} {Q : Unit → φ → ρ → Prop} (h : Q () f (g r)) :
    wp A (mod g : Cmd φ ρ ε Unit) Q E X f r := fun _ henv => ⟨h, henv⟩

theorem wp_rdF {look : φ → Option α} {Q : Option α → φ → ρ → Prop}
    (hok : A .ok → Q (look f) f r) (hfail : A .fail → Q none f r) (hcut : A .cut → X f r) :
    wp A (rdF look : Cmd φ ρ ε (Option α)) Q E X f r := by
  intro env henv
  have h0 := henv 0
  cases he : env 0 with
  | ok =>
    have hr : (rdF look : Cmd φ ρ ε (Option α)).run ⟨f, r, env⟩
        = (some (.ok (look f)), ⟨f, r, fun n => env (n + 1)⟩) := by
      simp [rdF, lift, ExceptT.run, ExceptT.mk, FsM.read, he]
    rw [hr]; rw [he] at h0; exact ⟨hok h0, fun n => henv (n + 1)⟩
  | fail =>
    have hr : (rdF look : Cmd φ ρ ε (Option α)).run ⟨f, r, env⟩
        = (some (.ok none), ⟨f, r, fun n => env (n + 1)⟩) := by
      simp [rdF, lift, ExceptT.run, ExceptT.mk, FsM.read, he]
    rw [hr]; rw [he] at h0; exact ⟨hfail h0, fun n => henv (n + 1)⟩
  | cut =>
    have hr : (rdF look : Cmd φ ρ ε (Option α)).run ⟨f, r, env⟩
        = (none, ⟨f, r, fun n => env (n + 1)⟩) := by
      simp [rdF, lift, ExceptT.run, ExceptT.mk, FsM.read, he]
    rw [hr]; rw [he] at h0; exact hcut h0

theorem wp_wrF {upd : φ → Option φ} {Q : Bool → φ → ρ → Prop}
    (hok : A .ok → ∀ f', upd f = some f' → Q true f' r)
    (hno : A .ok → upd f = none → Q false f r)
    (hfail : A .fail → Q false f r) (hcut : A .cut → X f r) :
    wp A (wrF upd : Cmd φ ρ ε Bool) Q E X f r := by
  intro env henv
  have h0 := henv 0
  cases he : env 0 with
  | ok =>
    rw [he] at h0
    cases hu : upd f with
    | none =>
      have hr : (wrF upd : Cmd φ ρ ε Bool).run ⟨f, r, env⟩
          = (some (.ok false), ⟨f, r, fun n => env (n + 1)⟩) := by
        simp [wrF, lift, ExceptT.run, ExceptT.mk, FsM.write, he, hu]
      rw [hr]; exact ⟨hno h0 hu, fun n => henv (n + 1)⟩
    | some f' =>
      have hr : (wrF upd : Cmd φ ρ ε Bool).run ⟨f, r, env⟩
          = (some (.ok true), ⟨f', r, fun n => env (n + 1)⟩) := by
        simp [wrF, lift, ExceptT.run, ExceptT.mk, FsM.write, he, hu]
      rw [hr]; exact ⟨hok h0 f' hu, fun n => henv (n + 1)⟩
  | fail =>
    have hr : (wrF upd : Cmd φ ρ ε Bool).run ⟨f, r, env⟩
        = (some (.ok false), ⟨f, r, fun n => env (n + 1)⟩) := by
      simp [wrF, lift, ExceptT.run, ExceptT.mk, FsM.write, he]
    rw [hr]; rw [he] at h0; exact ⟨hfail h0, fun n => henv (n + 1)⟩
  | cut =>
    have hr : (wrF upd : Cmd φ ρ ε Bool).run ⟨f, r, env⟩
        = (none, ⟨f, r, fun n => env (n + 1)⟩) := by
      simp [wrF, lift, ExceptT.run, ExceptT.mk, FsM.write, he]
    rw [hr]; rw [he] at h0; exact hcut h0

theorem wp_rdOr {look : φ → Option α} {e : ε} {Q : α → φ → ρ → Prop}
    (hok : ∀ a, look f = some a → Q a f r) (hno : look f = none → E e f r)
    (hfail : A .fail → E e f r) (hcut : A .cut → X f r) :
    wp A (rdOr look e : Cmd φ ρ ε α) Q E X f r := by
  unfold rdOr
  apply wp_bind
  apply wp_rdF
  · intro _
    cases h : look f with
    | none => exact wp_throw (hno h)
    | some a => exact wp_pure (hok a h)
  · intro hf
    exact wp_throw (hfail hf)
  · exact hcut

theorem wp_wrOr {upd : φ → Option φ} {e : ε} {Q : Unit → φ → ρ → Prop}
    (hok : ∀ f', upd f = some f' → Q () f' r) (hno : upd f = none → E e f r)
    (hfail : A .fail → E e f r) (hcut : A .cut → X f r) :
    wp A (wrOr upd e : Cmd φ ρ ε Unit) Q E X f r := by
  unfold wrOr
  apply wp_bind
  apply wp_wrF
  · intro _ f' h
    rw [if_pos rfl]
    exact wp_pure (hok f' h)
  · intro _ h
    exact wp_throw (hno h)
  · intro hf
    exact wp_throw (hfail hf)
  · exact hcut

theorem wp_ite {c : Prop} [Decidable c] {m n : Cmd φ ρ ε α} {Q : α → φ → ρ → Prop}
    (h : c → wp A m Q E X f r) (h' : ¬ c → wp A n Q E X f r) :
    wp A (if c then m else n) Q E X f r := by
  by_cases hc : c
  · rw [if_pos hc]; exact h hc
  · rw [if_neg hc]; exact h' hc

/-- Conjunction of two facts about the same run. -/
theorem wp_and {m : Cmd φ ρ ε α} {Q Q' : α → φ → ρ → Prop} {E' : ε → φ → ρ → Prop}
    {X' : φ → ρ → Prop} (h : wp A m Q E X f r) (h' : wp A m Q' E' X' f r) :
    wp A m (fun a f r => Q a f r ∧ Q' a f r) (fun e f r => E e f r ∧ E' e f r)
      (fun f r => X f r ∧ X' f r) f r := by
  intro env henv
  have h1 := h env henv
  have h2 := h' env henv
  cases hm : m.run ⟨f, r, env⟩ with
  | mk o w =>
    rw [hm] at h1 h2
    cases o with
    | none => exact ⟨h1, h2⟩
    | some x =>
      cases x with
      | error e => exact ⟨⟨h1.1, h2.1⟩, h1.2⟩
      | ok a => exact ⟨⟨h1.1, h2.1⟩, h1.2⟩

end Cmd

/-- Every kind of fault. -/
def anyFault : Fault → Prop := fun _ => True
/-- Only power cuts: no call returns an error of its own. -/
def cutsOnly : Fault → Prop := fun x => x ≠ .fail
/-- No faults. -/
def noFault : Fault → Prop := fun x => x = .ok

/-- A schedule made of faults of a kind. -/
def Env.all (A : Fault → Prop) (env : Env) : Prop := ∀ n, A (env n)

/-- What the host sees of one command. -/
inductive Outcome (ε : Type) where
  /-- power was cut during the command -/
  | cut
  | done (r : ε)
  deriving DecidableEq, Repr

/-- Run a command whose normal result is a response too. -/
def runCmd {φ ρ ε : Type} (m : Cmd φ ρ ε ε) (f : φ) (r : ρ) (env : Env) : φ × ρ × Outcome ε :=
  match m.run ⟨f, r, env⟩ with
  | (none, w) => (w.flash, w.ram, .cut)
  | (some (.error e), w) => (w.flash, w.ram, .done e)
  | (some (.ok a), w) => (w.flash, w.ram, .done a)

theorem runCmd_of_wp {φ ρ ε : Type} {A : Fault → Prop} {m : Cmd φ ρ ε ε} {f : φ} {r : ρ}
    {P : Outcome ε → φ → ρ → Prop}
    (h : Cmd.wp A m (fun a => P (.done a)) (fun e => P (.done e)) (P .cut) f r)
    {env : Env} (henv : env.all A) :
    P (runCmd m f r env).2.2 (runCmd m f r env).1 (runCmd m f r env).2.1 := by
  have h1 := h env henv
  unfold runCmd
  cases hm : m.run ⟨f, r, env⟩ with
  | mk o w =>
    rw [hm] at h1
    cases o with
    | none => exact h1
    | some x =>
      cases x with
      | error e => exact h1.1
      | ok a => exact h1.1

end Verif
