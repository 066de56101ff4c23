import Verif.Lemmas.PivSecret
/-
C101: the PIV PIN and PUK behave as the machine of `Spec/PivSecret.lean` says.
-/
namespace Verif.Piv
open Cmd Verif.Spec.Piv

variable {x : Ext}

/-- The first boot of a blank device leaves the factory PIN and PUK. -/
theorem first_boot {f : Flash} {o : Option Ram} {rnd : Nat → Byte} {env : Env} (hf : f.alg = none) (he : env.all noFault) :
    Same (step x ⟨f, o⟩ (.boot rnd) env).1 .new := by
  have e : step x ⟨f, o⟩ (.boot rnd) env = exec (installOp false rnd) f Ram.init env := by cases o <;> rfl
  rw [e]
  have key : ∀ f' r', InstEff noFault false rnd f Ram.init f' r' → f' = factory rnd none ∧ r'.pin.validated = false := by
    intro f' r' h'
    obtain ⟨b, hb⟩ := h'.ram
    have := (h'.onBoot rfl).resolve_left (by intro h; cases h)
    rw [hf] at this
    exact ⟨this, by rw [hb]; rfl⟩
  have hw : wp noFault (installOp false rnd) (fun _ f' r' => f' = factory rnd none ∧ r'.pin.validated = false)
      (fun _ f' r' => f' = factory rnd none ∧ r'.pin.validated = false) (fun _ _ => False) f Ram.init := by
    refine wp_mono (installOp_wp (A := noFault) false rnd) (fun _ => key) (fun _ => key) ?_
    rintro f' r' ⟨_, h⟩; cases h
  rcases exec_of_wp (P := fun o f' r' => match o with
    | .cut => False
    | .done _ => f' = factory rnd none ∧ r'.pin.validated = false) hw he with
    ⟨f', r', e, h'⟩ | ⟨f', r', a, e, h'⟩
  · exact h'.elim
  · rw [e]
    obtain ⟨rfl, h'⟩ := h'
    exact ⟨factory_repr _ _, rfl, (fun _ h => by cases h; exact ⟨rfl, h'⟩), (fun h => by cases h)⟩

/-- C101. After the first boot of a blank device, every history of commands, deselections, resets, boots and power
failures is one the machine allows: every VERIFY, CHANGE REFERENCE DATA, RESET RETRY COUNTER and RESET is answered as
the machine says, and no other command changes the PIN, the PUK or their tries. Resets must run to their end. -/
theorem C101_secrets (hx : x.Ok) (f : Flash) (hf : f.alg = none) (rnd : Nat → Byte) (env : Env) (he : env.all noFault)
    (h : List (Op × Env)) (hh : ∀ e ∈ h, e.2.all cutsOnly ∧ (Resets e.1 → e.2.all noFault)) :
    ∃ m, Mach.new.Trace (observed (run x (step x ⟨f, none⟩ (.boot rnd) env).1 [] h).2) m :=
  let ⟨m, h, _⟩ := run_same hx hh (log := []) .nil (first_boot (x := x) hf he)
  ⟨m, h⟩

/-- C101, from any state with well-formed files on (for instance in the middle of a history with faults). -/
theorem C101_secrets_from (hx : x.Ok) (s : St) (m : Mach) (hs : Same s m)
    (h : List (Op × Env)) (hh : ∀ e ∈ h, e.2.all cutsOnly ∧ (Resets e.1 → e.2.all noFault)) :
    ∃ m', m.Trace (observed (run x s [] h).2) m' ∧ Same (run x s [] h).1 m' :=
  run_same hx hh (log := []) .nil hs

end Verif.Piv
