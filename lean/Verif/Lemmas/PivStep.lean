import Verif.Lemmas.PivAdm
/-
Steps of a PIV history.
-/
set_option linter.unusedSimpArgs false
namespace Verif.Piv
open Cmd Verif.Spec.Piv Verif.KeyFile

variable {A : Fault → Prop} {x : Ext} {i : In} {f : Flash} {r : Ram}

theorem exec_of_wp {m : M Reply} {P : Outcome Reply → Flash → Ram → Prop}
    (h : wp A m (fun a => P (.done a)) (fun e => P (.done e)) (P .cut) f r) {env : Env} (henv : env.all A) :
    (∃ f' r', exec m f r env = (⟨f', none⟩, .cut) ∧ P .cut f' r') ∨
    (∃ f' r' a, exec m f r env = (⟨f', some r'⟩, .reply a) ∧ P (.done a) f' r') := by
  have h1 := runCmd_of_wp h henv
  unfold exec
  cases hr : runCmd m f r env with
  | mk f' p =>
    obtain ⟨r', o⟩ := p
    rw [hr] at h1
    cases o with
    | cut => exact .inl ⟨f', r', rfl, h1⟩
    | done a => exact .inr ⟨f', r', a, rfl, h1⟩

theorem anyAll (env : Env) : env.all anyFault := fun _ => trivial

/-- The outcomes of an operation. -/
inductive SEff (A : Fault → Prop) (x : Ext) : St → Op → Out → St → Prop
  | off (f : Flash) (op : Op) (h : ∀ rnd, op ≠ .boot rnd) : SEff A x ⟨f, none⟩ op .none ⟨f, none⟩
  | apdu (f : Flash) (r : Ram) (i : In) (a : Reply) (f' : Flash) (r' : Ram) (h : PEff A x i f r (.done a) f' r') :
      SEff A x ⟨f, some r⟩ (.apdu i) (.reply a) ⟨f', some r'⟩
  | apduCut (f : Flash) (r : Ram) (i : In) (f' : Flash) (r' : Ram) (h : PEff A x i f r .cut f' r') :
      SEff A x ⟨f, some r⟩ (.apdu i) .cut ⟨f', none⟩
  | desel (f : Flash) (r : Ram) : SEff A x ⟨f, some r⟩ .deselect .none ⟨f, some (poweroff r)⟩
  | fac (f : Flash) (r : Ram) (rnd : Nat → Byte) (a : Reply) (f' : Flash) (r' : Ram)
      (h : InstEff A true rnd f r f' r') : SEff A x ⟨f, some r⟩ (.factory rnd) (.reply a) ⟨f', some r'⟩
  | facCut (f : Flash) (r : Ram) (rnd : Nat → Byte) (f' : Flash) (h : Inst f f') (hA : A .cut) :
      SEff A x ⟨f, some r⟩ (.factory rnd) .cut ⟨f', none⟩
  | boot (f : Flash) (o : Option Ram) (rnd : Nat → Byte) (a : Reply) (f' : Flash) (r' : Ram)
      (h : InstEff A false rnd f Ram.init f' r') : SEff A x ⟨f, o⟩ (.boot rnd) (.reply a) ⟨f', some r'⟩
  | bootCut (f : Flash) (o : Option Ram) (rnd : Nat → Byte) (f' : Flash) (h : Inst f f') (hA : A .cut) :
      SEff A x ⟨f, o⟩ (.boot rnd) .cut ⟨f', none⟩

theorem installOp_wp (reset : Bool) (rnd : Nat → Byte) : wp A (installOp reset rnd) (fun _ => InstEff A reset rnd f r)
    (fun _ => InstEff A reset rnd f r) (fun f' _ => Inst f f' ∧ A .cut) f r := by
  unfold installOp
  apply wp_bind
  exact wp_mono (install_wp reset rnd) (fun _ _ _ h => wp_pure h.1) (fun _ _ _ h => h) (fun _ _ h => h)

theorem step_eff (hx : x.Ok) (s : St) (op : Op) {env : Env} (henv : env.all A) :
    SEff A x s op (step x s op env).2 (step x s op env).1 := by
  obtain ⟨f, o⟩ := s
  cases op with
  | boot rnd =>
    have e : step x ⟨f, o⟩ (.boot rnd) env = exec (installOp false rnd) f Ram.init env := by cases o <;> rfl
    rw [e]
    rcases exec_of_wp (P := fun o f' r' => match o with
      | .cut => Inst f f' ∧ A .cut
      | .done _ => InstEff A false rnd f Ram.init f' r') (installOp_wp false rnd) henv with
      ⟨f', r', e, h⟩ | ⟨f', r', a, e, h⟩ <;> rw [e]
    · exact .bootCut _ _ _ _ h.1 h.2
    · exact .boot _ _ _ _ _ _ h
  | factory rnd =>
    cases o with
    | none => exact .off _ _ (fun _ e => by cases e)
    | some r =>
      show SEff A x _ _ (exec (installOp true rnd) f r env).2 (exec (installOp true rnd) f r env).1
      rcases exec_of_wp (P := fun o f' r' => match o with
        | .cut => Inst f f' ∧ A .cut
        | .done _ => InstEff A true rnd f r f' r') (installOp_wp true rnd) henv with
        ⟨f', r', e, h⟩ | ⟨f', r', a, e, h⟩ <;> rw [e]
      · exact .facCut _ _ _ _ h.1 h.2
      · exact .fac _ _ _ _ _ _ h
  | deselect =>
    cases o with
    | none => exact .off _ _ (fun _ e => by cases e)
    | some r => exact .desel _ _
  | apdu i =>
    cases o with
    | none => exact .off _ _ (fun _ e => by cases e)
    | some r =>
      show SEff A x _ _ (exec (process x i) f r env).2 (exec (process x i) f r env).1
      rcases exec_of_wp (P := PEff A x i f r) (process_wp hx) henv with
        ⟨f', r', e, h⟩ | ⟨f', r', a, e, h⟩ <;> rw [e]
      · exact .apduCut _ _ _ _ _ h
      · exact .apdu _ _ _ _ _ _ h

/-- An invariant that every step keeps holds at the end of every history. -/
theorem run_inv {I : St → List Entry → Prop}
    (hstep : ∀ s log op env, env.all A → I s log → I (step x s op env).1 ((s, op, (step x s op env).2) :: log))
    {h : List (Op × Env)} (hh : ∀ e ∈ h, e.2.all A) {s : St} {log : List Entry} (hi : I s log) :
    I (run x s log h).1 (run x s log h).2 := by
  induction h generalizing s log with
  | nil => exact hi
  | cons e h ih =>
    obtain ⟨op, env⟩ := e
    exact ih (fun e he => hh e (by simp [he])) (hstep _ _ _ _ (hh (op, env) (by simp)) hi)

end Verif.Piv
