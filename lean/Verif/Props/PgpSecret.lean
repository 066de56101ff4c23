import Verif.Lemmas.PgpSecretRun
/-
C102: the OpenPGP PINs and the resetting code behave as the machine of `Spec/PgpSecret.lean` says.
-/
namespace Verif.Pgp
open Cmd Verif.Spec.Pgp

variable {x : Ext}

/-- The first boot of a blank device leaves the factory PINs. -/
theorem first_boot {f : Flash} {o : Option Ram} {env : Env} (hf : f.data = none) (he : env.all noFault) :
    Agree (step x ⟨f, o⟩ .boot env).1 .new := by
  have e : step x ⟨f, o⟩ .boot env = exec (installOp false) f Ram.init env := by cases o <;> rfl
  rw [e]
  obtain ⟨o', f', r', h', e⟩ := exec_of_wp (P := fun o f' r' => BootEff noFault f Ram.init o f' r') he boot_wp
  rw [e]
  cases h' with
  | nop h => exact absurd hf h
  | cut h => cases h
  | inst _ _ _ _ h =>
    cases h with
    | done => exact ⟨factory_repr, (fun _ h => by cases h; exact ⟨rfl, rfl, rfl⟩), (fun h => by cases h)⟩
    | fail h => cases h
    | cut h => cases h

/-- C102. After the first boot of a blank device, every history of commands, deselections, resets, boots and power
failures is one the machine allows: every VERIFY, CHANGE REFERENCE DATA, RESET RETRY COUNTER, PUT DATA of the resetting
code, TERMINATE and ACTIVATE is answered as the machine says, the PW status bytes show the tries it has, and no other
command changes a PIN or its tries. Resets must run to their end.

Missing: the commands must be `Plain`. Without that the claim is false (`C102_refuted_length`, `C102_refuted_stack`). -/
theorem C102_pins_partial (hx : x.Ok) (f : Flash) (hf : f.data = none) (env : Env) (he : env.all noFault)
    (h : List (Op × Env)) (hh : ∀ e ∈ h, Plain e.1 ∧ e.2.all cutsOnly ∧ (Resets e.1 → e.2.all noFault)) :
    ∃ m, Mach.new.Trace (observed (run x (step x ⟨f, none⟩ .boot env).1 [] h).2) m :=
  let ⟨m, h, _⟩ := run_agree hx hh (log := []) .nil (first_boot (x := x) hf he)
  ⟨m, h⟩

/-- C102, from any state on whose files are well-formed. -/
theorem C102_pins_from_partial (hx : x.Ok) (s : St) (m : Mach) (hs : Agree s m)
    (h : List (Op × Env)) (hh : ∀ e ∈ h, Plain e.1 ∧ e.2.all cutsOnly ∧ (Resets e.1 → e.2.all noFault)) :
    ∃ m', m.Trace (observed (run x s [] h).2) m' ∧ Agree (run x s [] h).1 m' :=
  run_agree hx hh (log := []) .nil hs

end Verif.Pgp
