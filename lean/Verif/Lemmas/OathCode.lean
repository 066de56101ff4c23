import Verif.Base.Keeps
import Verif.Spec.OathCode
import Verif.Lemmas.OathSpec
set_option linter.unusedSimpArgs false
set_option linter.unusedTactic false
set_option linter.unreachableTactic false
/-
Lemmas for C99: which operations touch the access code, the challenge and the session.
-/
namespace Verif.Oath
open Verif.Spec.Oath Verif.Spec.OathCode Cmd

/-- The access code is the same. -/
def SameCode (f f' : Flash) : Prop := f'.oath.bind (·.key) = f.oath.bind (·.key)
/-- The challenge and the session are the same. -/
def SameSess (r r' : Ram) : Prop := r'.authChal = r.authChal ∧ r'.validated = r.validated

instance : PreOrd SameCode := ⟨fun _ => rfl, fun h h' => Eq.trans h' h⟩
instance : PreOrd SameSess := ⟨fun _ => ⟨rfl, rfl⟩, fun h h' => ⟨h'.1.trans h.1, h'.2.trans h.2⟩⟩

variable {x : Ext} {i : In}

theorem updRec_code {n : Nat} {q : Rec} {f f' : Flash} (h : updRec n q f = some f') : SameCode f f' := by
  unfold updRec at h
  unfold SameCode
  obtain ⟨o, ho, rfl⟩ := Option.map_eq_some_iff.mp h
  rw [ho]; rfl

theorem updChal_code {n : Nat} {c : Bytes} {f f' : Flash} (h : updChal n c f = some f') : SameCode f f' := by
  unfold updChal at h
  unfold SameCode
  obtain ⟨o, ho, rfl⟩ := Option.map_eq_some_iff.mp h
  rw [ho]; rfl

theorem updPass_code {r : Ram} {f f' : Flash} (h : updPass r f = some f') : SameCode f f' := by
  unfold updPass at h; cases h; rfl

/-- Closes the writes. -/
macro "oc1" : tactic => `(tactic| first
  | (intro f f' h; first | exact updRec_code h | exact updChal_code h | exact updPass_code h))

theorem putScan_code {name : Bytes} {n j u k : Nat} : Moves SameCode (putScan name n j u k) := by
  induction k generalizing j u with
  | zero => unfold putScan; mvs (fail)
  | succ k ih => unfold putScan readRec; mvs (with_reducible exact ih)
theorem find_code {name : Bytes} {j k : Nat} : Moves SameCode (find name j k) := by
  induction k generalizing j with
  | zero => unfold find; mvs (fail)
  | succ k ih => unfold find readRec; mvs (with_reducible exact ih)
theorem renameScan_code {a b : Bytes} {n j u k : Nat} : Moves SameCode (renameScan a b n j u k) := by
  induction k generalizing j u with
  | zero => unfold renameScan; mvs (fail)
  | succ k ih => unfold renameScan readRec; mvs (with_reducible exact ih)
theorem listLoop_code {n le k : Nat} {out : Bytes} : Moves SameCode (listLoop n le k out) := by
  induction k generalizing out with
  | zero => unfold listLoop; mvs (fail)
  | succ k ih => unfold listLoop readRec; mvs (with_reducible exact ih)
theorem enforce_code {j : Nat} {q : Rec} {c : Bytes} : Moves SameCode (enforceIncreasing j q c) := by
  unfold enforceIncreasing; mvs oc1
theorem calcOne_code {t : Bool} {j : Nat} {q : Rec} {c : Bytes} : Moves SameCode (calcOne x t j q c) := by
  unfold calcOne; mvs (first | with_reducible exact enforce_code | oc1)
theorem calcLoop_code {n le k : Nat} {out : Bytes} : Moves SameCode (calcLoop x n le k out) := by
  induction k generalizing out with
  | zero => unfold calcLoop; mvs (fail)
  | succ k ih => unfold calcLoop readRec; mvs (first | with_reducible exact ih | with_reducible exact calcOne_code)
theorem calcStart_code : Moves SameCode (calcStart i) := by
  unfold calcStart; mvs (fail)
theorem factor_code {off j : Nat} {q : Rec} : Moves SameCode (factor i off j q) := by
  unfold factor; mvs (first | with_reducible exact enforce_code | oc1)
theorem passDel_code {o : Nat} : Moves SameCode (passDeleteOath o) := by
  unfold passDeleteOath; mvs oc1
theorem nRecords_code : Moves SameCode nRecords := by unfold nRecords; mvs (fail)

/-- Closes the calls. -/
macro "oc2" : tactic => `(tactic| first
  | with_reducible exact nRecords_code
  | with_reducible exact putScan_code
  | with_reducible exact find_code
  | with_reducible exact renameScan_code
  | with_reducible exact listLoop_code
  | with_reducible exact calcLoop_code
  | with_reducible exact calcStart_code
  | with_reducible exact factor_code
  | with_reducible exact passDel_code
  | oc1)

theorem put_code : Moves SameCode (put i) := by unfold put; mvs oc2
theorem delete_code : Moves SameCode (delete i) := by unfold delete; mvs oc2
theorem rename_code : Moves SameCode (rename i) := by unfold rename readRec; mvs oc2
theorem list_code : Moves SameCode (list i) := by unfold list; mvs oc2
theorem calculate_code : Moves SameCode (calculate x i) := by unfold calculate; mvs oc2
theorem calculateAll_code : Moves SameCode (calculateAll x i) := by unfold calculateAll; mvs oc2
theorem sendRemaining_code : Moves SameCode (sendRemaining x i) := by
  unfold sendRemaining; mvs (first | with_reducible exact list_code | with_reducible exact calculateAll_code)
theorem setDefault_code : Moves SameCode (setDefault i) := by unfold setDefault; mvs oc2

/-! ### Memory -/

theorem putScan_sess {name : Bytes} {n j u k : Nat} : Keeps SameSess (putScan name n j u k) := by
  induction k generalizing j u with
  | zero => unfold putScan; kps (fail)
  | succ k ih => unfold putScan readRec; kps (with_reducible exact ih)
theorem find_sess {name : Bytes} {j k : Nat} : Keeps SameSess (find name j k) := by
  induction k generalizing j with
  | zero => unfold find; kps (fail)
  | succ k ih => unfold find readRec; kps (with_reducible exact ih)
theorem renameScan_sess {a b : Bytes} {n j u k : Nat} : Keeps SameSess (renameScan a b n j u k) := by
  induction k generalizing j u with
  | zero => unfold renameScan; kps (fail)
  | succ k ih => unfold renameScan readRec; kps (with_reducible exact ih)

/-- Closes the changes of other variables. -/
macro "os1" : tactic => `(tactic| (intro r; first | exact ⟨rfl, rfl⟩ | (constructor <;> (split <;> rfl))))

theorem listLoop_sess {n le k : Nat} {out : Bytes} : Keeps SameSess (listLoop n le k out) := by
  induction k generalizing out with
  | zero => unfold listLoop; kps (fail)
  | succ k ih => unfold listLoop readRec; kps (first | with_reducible exact ih | os1)
theorem enforce_sess {j : Nat} {q : Rec} {c : Bytes} : Keeps SameSess (enforceIncreasing j q c) := by
  unfold enforceIncreasing; kps os1
theorem calcOne_sess {t : Bool} {j : Nat} {q : Rec} {c : Bytes} : Keeps SameSess (calcOne x t j q c) := by
  unfold calcOne; kps (first | with_reducible exact enforce_sess | os1)
theorem calcLoop_sess {n le k : Nat} {out : Bytes} : Keeps SameSess (calcLoop x n le k out) := by
  induction k generalizing out with
  | zero => unfold calcLoop; kps (fail)
  | succ k ih => unfold calcLoop readRec; kps (first | with_reducible exact ih | with_reducible exact calcOne_sess | os1)
theorem calcStart_sess : Keeps SameSess (calcStart i) := by
  unfold calcStart; kps os1
theorem factor_sess {off j : Nat} {q : Rec} : Keeps SameSess (factor i off j q) := by
  unfold factor; kps (first | with_reducible exact enforce_sess | os1)
theorem passDel_sess {o : Nat} : Keeps SameSess (passDeleteOath o) := by
  unfold passDeleteOath; kps os1
theorem nRecords_sess : Keeps SameSess nRecords := by unfold nRecords; kps (fail)

/-- Closes the calls. -/
macro "os2" : tactic => `(tactic| first
  | with_reducible exact nRecords_sess
  | with_reducible exact putScan_sess
  | with_reducible exact find_sess
  | with_reducible exact renameScan_sess
  | with_reducible exact listLoop_sess
  | with_reducible exact calcLoop_sess
  | with_reducible exact calcStart_sess
  | with_reducible exact factor_sess
  | with_reducible exact passDel_sess
  | os1)

theorem put_sess : Keeps SameSess (put i) := by unfold put; kps os2
theorem delete_sess : Keeps SameSess (delete i) := by unfold delete; kps os2
theorem rename_sess : Keeps SameSess (rename i) := by unfold rename readRec; kps os2
theorem list_sess : Keeps SameSess (list i) := by unfold list; kps os2
theorem calculate_sess : Keeps SameSess (calculate x i) := by unfold calculate; kps os2
theorem calculateAll_sess : Keeps SameSess (calculateAll x i) := by unfold calculateAll; kps os2
theorem sendRemaining_sess : Keeps SameSess (sendRemaining x i) := by
  unfold sendRemaining; kps (first | with_reducible exact list_sess | with_reducible exact calculateAll_sess)
theorem setDefault_sess : Keeps SameSess (setDefault i) := by unfold setDefault; kps os2

/-! ### Commands that have nothing to do with the access code -/

theorem process_code (h3 : ¬ IsSet i) (hv : ¬ IsValidate i) (hs : ¬ IsSelect i) :
    Moves SameCode (process x i) := by
  unfold process
  mvs (first
    | with_reducible exact put_code
    | with_reducible exact delete_code
    | with_reducible exact rename_code
    | with_reducible exact list_code
    | with_reducible exact calculate_code
    | with_reducible exact calculateAll_code
    | with_reducible exact sendRemaining_code
    | with_reducible exact setDefault_code
    | (exfalso; simp_all [IsSet, IsValidate, IsSelect]; done))

theorem process_sess (h3 : ¬ IsSet i) (hv : ¬ IsValidate i) (hs : ¬ IsSelect i) :
    Keeps SameSess (process x i) := by
  unfold process
  kps (first
    | with_reducible exact put_sess
    | with_reducible exact delete_sess
    | with_reducible exact rename_sess
    | with_reducible exact list_sess
    | with_reducible exact calculate_sess
    | with_reducible exact calculateAll_sess
    | with_reducible exact sendRemaining_sess
    | with_reducible exact setDefault_sess
    | os1
    | (exfalso; simp_all [IsSet, IsValidate, IsSelect]; done))

theorem passWrite_code {c : Verif.Apdu.Capdu} : Moves SameCode (passWrite c) := by unfold passWrite; mvs oc1
theorem passWrite_sess {c : Verif.Apdu.Capdu} : Keeps SameSess (passWrite c) := by unfold passWrite; kps os1
theorem passInstall_code {b : Bool} : Moves SameCode (passInstall b) := by unfold passInstall; mvs oc1
theorem passInstall_sess {b : Bool} : Keeps SameSess (passInstall b) := by unfold passInstall; kps os1
theorem passRead_code : Moves SameCode passRead := by unfold passRead; mvs (fail)
theorem passRead_sess : Keeps SameSess passRead := by unfold passRead; kps (fail)

/-- Running such a command. -/
theorem exec_same {m : M Reply} (h : Moves SameCode m) (h' : Keeps SameSess m) (s : St) (env : Env) :
    ((exec m s env).2 = .cut ∧ sess (exec m s env).1 = .fresh (sess s).code) ∨
      ((exec m s env).2 ≠ .cut ∧ sess (exec m s env).1 = sess s) := by
  have h1 := h ⟨s.flash, s.ram, env⟩
  have h2 := h' ⟨s.flash, s.ram, env⟩
  unfold exec runCmd
  cases hm : m.run ⟨s.flash, s.ram, env⟩ with
  | mk o w =>
    rw [hm] at h1 h2
    have key : sess ⟨w.flash, w.ram⟩ = sess s := by
      unfold sess
      rw [h2.1, h2.2, show w.flash.oath.bind (·.key) = _ from h1]
    cases o with
    | none =>
      refine .inl ⟨rfl, ?_⟩
      unfold sess Sess.fresh
      rw [show w.flash.oath.bind (·.key) = _ from h1]
      rfl
    | some y => cases y <;> exact .inr ⟨by simp, key⟩

end Verif.Oath
