import Verif.Lemmas.AdminMach
import Verif.Props.Admin
/-
C105: the admin applet behaves as the machine of `Spec/AdminMach.lean` says.
-/
namespace Verif.Admin
open Cmd Verif.Spec.Admin

section
variable {σ τ : Type} {x : Ext σ τ}

/-- The first boot of a blank device leaves the factory PIN and settings. -/
theorem first_boot {f : Flash σ} {o : Option (Ram τ)} {t : τ} {env : Env} (hp : f.pin = none) (hc : f.cfg = none)
    (he : env.all noFault) (hb : (step x ⟨f, o⟩ (.boot t) env).2 = .none) :
    Same (step x ⟨f, o⟩ (.boot t) env).1 (.new f.sn) := by
  have hw := boot_gen (A := noFault) (x := x) (f := f) (r := Ram.init t)
    (P := fun f' => f'.pin = none ∧ f'.cfg = none ∧ f'.sn = f.sn)
    (R := fun f' => Files f' (.new f.sn)) (Y := fun _ => True) (V := fun r => Vars r (.new f.sn))
    (fun _ _ h => h) (fun _ _ h => h.frame rfl rfl rfl) (fun _ _ h => h.frame rfl rfl rfl)
    (fun _ _ h => h.frame rfl rfl) (fun _ _ h => h.frame rfl rfl) (fun _ _ => trivial) (fun _ _ => trivial)
    (fun _ _ h => install_first h) ⟨hp, hc, rfl⟩ env he
  rw [Cmd.lift_run] at hw
  have e : step x ⟨f, o⟩ (.boot t) env = match boot x ⟨f, Ram.init t, env⟩ with
      | (none, w) => (⟨w.flash, none⟩, .cut)
      | (some _, w) => (⟨w.flash, some w.ram⟩, .none) := rfl
  rw [e] at hb ⊢
  cases h' : boot x ⟨f, Ram.init t, env⟩ with
  | mk o w =>
    rw [h'] at hw hb
    cases o with
    | none => cases hb
    | some _ => exact ⟨hw.1.1, (fun r hr => by cases hr; exact ⟨rfl, hw.1.2⟩), (fun h => by cases h)⟩

/-- C105. After the first boot of a blank device, every history of admin commands, commands to other applets,
deselections, boots and power failures is one the machine allows: every command to the admin applet is answered as the
machine says, and nothing else changes the admin PIN, its tries, the serial number or the settings. FACTORY RESET must run
to its end, with applets whose resets work.

Missing: the data of a command must have at most 255 bytes. Without that the claim is false (`C105_refuted`). -/
theorem C105_machine_partial (hx : x.neq ≠ 0 ∧ x.neq ≠ 1) (hw : ResetsWork noFault x) (f : Flash σ) (hp : f.pin = none)
    (hc : f.cfg = none) (t : τ) (env : Env) (he : env.all noFault) (hb : (step x ⟨f, none⟩ (.boot t) env).2 = .none)
    (h : List (Op σ τ × Env)) (hh : ∀ e ∈ h, e.2.all cutsOnly ∧ (IsFactory e.1 → e.2.all noFault) ∧ Short e.1) :
    ∃ m, (Mach.new f.sn).Trace (observed (run x (step x ⟨f, none⟩ (.boot t) env).1 [] h).2) m :=
  let ⟨m, h, _⟩ := run_same hx hw hh (log := []) .nil (first_boot (x := x) hp hc he hb)
  ⟨m, h⟩

/-- C105, from any state with well-formed files on. -/
theorem C105_machine_from_partial (hx : x.neq ≠ 0 ∧ x.neq ≠ 1) (hw : ResetsWork noFault x) (s : St σ τ) (m : Mach)
    (hs : Same s m) (h : List (Op σ τ × Env))
    (hh : ∀ e ∈ h, e.2.all cutsOnly ∧ (IsFactory e.1 → e.2.all noFault) ∧ Short e.1) :
    ∃ m', m.Trace (observed (run x s [] h).2) m' ∧ Same (run x s [] h).1 m' :=
  run_same hx hw hh (log := []) .nil hs

end

/-! ### A concrete device -/

/-- A blank device. -/
def blank : Flash Unit := ⟨none, none, none, ⟨none, none⟩, ()⟩

theorem exX_resets : ResetsWork noFault exX := by
  intro m hm w _
  simp only [exX, List.mem_cons, List.not_mem_nil, or_false, or_self] at hm
  subst hm; rfl

/-- The blank device after its first boot. -/
def booted : St Unit Unit := (step exX ⟨blank, none⟩ (.boot ()) Env.good).1

theorem booted_same : Same booted (.new none) := first_boot (x := exX) rfl rfl good_all (by decide +kernel)

/-- A history with all kinds of commands. -/
def demo : List (Op Unit Unit × Env) := [
  (.apdu exConfig, Env.good), (.apdu exBad, Env.good), (.apdu exVerify, Env.good), (.apdu (exI 0x40 1 [] 0), Env.good),
  (.apdu (exI 0x42 0 [] 6), Env.good), (.apdu exWrite, Env.good), (.apdu exRead, Env.good),
  (.apdu (exI 0x21 0 [1, 1, 1, 1, 1, 1] 0), failAt 1 .cut), (.boot (), Env.good), (.apdu exVerify, Env.good),
  (.apdu exBad, Env.good), (.apdu exBad, Env.good), (.apdu exReset, Env.good), (.apdu exVerify, Env.good)]

/-- What the host sees. -/
def demoOut : List Out := [.reply (.sw 0x6982), .reply (.sw 0x63C2), .reply (.sw 0x9000), .reply (.sw 0x9000),
  .reply (.resp [0, 0, 0, 1, 1, 0] 0x9000), .reply (.sw 0x9000), .reply (.resp [1, 2, 3, 4] 0x9000), .cut, .none,
  .reply (.sw 0x63C2), .reply (.sw 0x63C1), .reply (.sw 0x6983), .reply (.sw 0x9000), .reply (.sw 0x9000)]

example : (observed (run exX booted [] demo).2).map (·.2) = demoOut := by decide +kernel

/-- Non-vacuity of `C105_machine_partial`. -/
example : ∃ m, (Mach.new none).Trace (observed (run exX booted [] demo).2) m := by
  refine C105_machine_partial (x := exX) (by decide) exX_resets blank rfl rfl () Env.good good_all (by decide +kernel) demo ?_
  intro e he
  simp only [demo, List.mem_cons, List.not_mem_nil, or_false] at he
  have ht : (failAt 1 .cut).all cutsOnly := by intro n; show failAt 1 .cut n ≠ .fail; unfold failAt; split <;> decide
  rcases he with rfl | rfl | rfl | rfl | rfl | rfl | rfl | rfl | rfl | rfl | rfl | rfl | rfl | rfl
  all_goals
    refine ⟨?_, ?_, ?_⟩
    · first | exact good_cuts | exact ht
    · first | exact fun _ => good_all | (intro h; exact absurd (show (0x21 : Byte) = 0x50 from h) (by decide))
    · first | trivial | (show _ ≤ 255; decide)

/-- 262 bytes, of which the first six are the PIN. -/
def longVerify : In := exI 0x20 0 (defaultPin ++ List.replicate 256 0) 0

/-- C105 fails for commands with more than 255 bytes: 262 bytes that only begin with the PIN are accepted as the PIN. -/
theorem C105_refuted : ¬ ∀ (x : Ext Unit Unit), x.neq ≠ 0 ∧ x.neq ≠ 1 → ResetsWork noFault x → ∀ (f : Flash Unit),
    f.pin = none → f.cfg = none → ∀ (env : Env), env.all noFault → (step x ⟨f, none⟩ (.boot ()) env).2 = .none →
    ∀ h : List (Op Unit Unit × Env), (∀ e ∈ h, e.2.all noFault) →
      ∃ m, (Mach.new f.sn).Trace (observed (run x (step x ⟨f, none⟩ (.boot ()) env).1 [] h).2) m := by
  intro H
  obtain ⟨m, ht⟩ := H exX (by decide) exX_resets blank rfl rfl Env.good good_all (by decide +kernel)
    [(.apdu longVerify, Env.good)] (by
      intro e he
      simp only [List.mem_cons, List.not_mem_nil, or_false] at he
      subst he; exact good_all)
  have e : (step exX booted (.apdu longVerify) Env.good).2 = .reply (.sw 0x9000) := by decide +kernel
  have ho : observed (run exX booted [] [(.apdu longVerify, Env.good)]).2 = [(.apdu longVerify, .reply (.sw 0x9000))] := by
    show [(Op.apdu longVerify, (step exX booted (.apdu longVerify) Env.good).2)] = _
    rw [e]
  have hl : longVerify.c.data.length = 262 := by
    show (defaultPin ++ List.replicate 256 0).length = 262
    rw [List.length_append, List.length_replicate]; rfl
  have hm : (Mach.new none).command longVerify = (Just 0x6700, { Mach.new none with shown := false }) := by
    have hi : longVerify.c.ins = 0x20 := rfl
    have hp : longVerify.c.p1 = 0 ∧ longVerify.c.p2 = 0 := ⟨rfl, rfl⟩
    rw [Mach.command]
    simp only [hi]
    rw [if_neg (by decide), if_neg (by decide), if_neg (by decide), if_neg (by decide), if_neg (by decide), if_pos trivial,
      Mach.verify, if_neg (by simp [hp.1, hp.2]), if_neg (by intro h; rw [h] at hl; cases hl), if_pos (.inr (by rw [hl]; decide))]
  change (Mach.new none).Trace (observed (run exX booted [] [(.apdu longVerify, Env.good)]).2) m at ht
  rw [ho] at ht
  cases ht with
  | cons hn _ =>
    cases hn with
    | answer _ h' => rw [hm] at h'; cases h'

end Verif.Admin
