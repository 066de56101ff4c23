import Verif.Props.PivPin
/-
C32: data objects.
-/
set_option linter.unusedSimpArgs false
namespace Verif.Piv
open Cmd Verif.Spec.Piv Verif.KeyFile

variable {A : Fault → Prop} {x : Ext} {i : In} {f : Flash} {r r' : Ram}

/-! ### Capacity -/

/-- Objects fit, and so does what a chain may still append. -/
def Inv32 (s : St) (log : List Entry) : Prop :=
  Fits s.flash ∧ Inv31 s log ∧ ∀ r, s.ram = some r →
    (∀ n o, r.write = some n → r.path = some o → ((s.flash.objs o).getD []).length + n ≤ cap o) ∧
    (∀ n o, r.read = some n → r.path = some o → Protected o → r.pin.validated = true)

theorem fits_same {f f' : Flash} (h : f'.objs = f.objs) (hf : Fits f) : Fits f' := fun o d => by rw [h]; exact hf o d

theorem pre_write {c : Apdu.Capdu} {n : Nat} (h : (pre c r).write = some n) : r.write = some n ∧ c.ins = 0xDB := by
  simp only [pre] at h
  split at h
  · exact ⟨h, by assumption⟩
  · cases h

theorem pre_read {c : Apdu.Capdu} {n : Nat} (h : (pre c r).read = some n) : r.read = some n ∧ c.ins = 0xC0 := by
  simp only [pre] at h
  split at h
  · exact ⟨h, by assumption⟩
  · cases h

/-- Commands leave the position in an object alone. -/
theorem chk_pos {w : Which} {d : Bytes} {e : Option Reply} {f f' : Flash} (h : ChkEff A w d f r e f' r') :
    r'.write = r.write ∧ r'.read = r.read := by
  cases h <;> cases w <;> exact ⟨rfl, rfl⟩

theorem vtu_pos {w w' : Which} {d : Bytes} {e : Option Reply} {f f' : Flash} (h : VtuEff A w w' d f r e f' r') :
    r'.write = r.write ∧ r'.read = r.read := by
  cases h with
  | chk _ _ _ h => exact chk_pos h
  | updIo f1 r1 h _ => obtain h := chk_pos h; cases w' <;> exact h
  | ok f1 r1 h _ => obtain h := chk_pos h; cases w' <;> exact h

theorem pre_none {c : Apdu.Capdu} (h : c.ins ≠ 0xDB) : (pre c r).write = none := by simp [pre, h]
theorem pre_none' {c : Apdu.Capdu} (h : c.ins ≠ 0xC0) : (pre c r).read = none := by simp [pre, h]

theorem poff {a : Alg} {f : Flash} (h : Fits f) (e : r' = { poweroff r with alg := a }) :
    Fits f ∧ (∀ n o, r'.write = some n → r'.path = some o → ((f.objs o).getD []).length + n ≤ cap o) ∧
      (∀ n o, r'.read = some n → r'.path = some o → Protected o → r'.pin.validated = true) := by
  subst e
  exact ⟨h, fun n o h => by (cases h), fun n o h => by (cases h)⟩

/-- The part of the invariant about one command that ends. -/
theorem peff32 (hi : Fits f) (hw : ∀ n o, r.write = some n → r.path = some o → ((f.objs o).getD []).length + n ≤ cap o)
    (hr : ∀ n o, r.read = some n → r.path = some o → Protected o → r.pin.validated = true)
    {a : Reply} {f' : Flash} (h : PEff A x i f r (.done a) f' r') :
    Fits f' ∧ (∀ n o, r'.write = some n → r'.path = some o → ((f'.objs o).getD []).length + n ≤ cap o) ∧
      (∀ n o, r'.read = some n → r'.path = some o → Protected o → r'.pin.validated = true) := by
  have key : ∀ {f' : Flash} {r' : Ram}, Fits f' → i.c.ins ≠ 0xDB → i.c.ins ≠ 0xC0 →
      r'.write = (pre i.c r).write ∧ r'.read = (pre i.c r).read →
      Fits f' ∧ (∀ n o, r'.write = some n → r'.path = some o → ((f'.objs o).getD []).length + n ≤ cap o) ∧
      (∀ n o, r'.read = some n → r'.path = some o → Protected o → r'.pin.validated = true) := by
    intro f' r' h h1 h2 ⟨e1, e2⟩
    rw [pre_none h1] at e1
    rw [pre_none' h2] at e2
    exact ⟨h, fun n o h => by (rw [e1] at h; cases h), fun n o h => by (rw [e2] at h; cases h)⟩
  cases h with
  | cla => exact ⟨hi, hw, hr⟩
  | sel h _ _ he =>
    cases he with
    | bad => exact key hi (by rw [h]; decide) (by rw [h]; decide) ⟨rfl, rfl⟩
    | ok => exact ⟨hi, fun n o h => by (cases h), fun n o h => by (cases h)⟩
  | get h _ _ he =>
    have h1 : i.c.ins ≠ 0xDB := by rcases h with h | h <;> rw [h] <;> decide
    have e1 := pre_none (r := r) h1
    have hr0 : ∀ n o, (pre i.c r).read = some n → (pre i.c r).path = some o → Protected o → (pre i.c r).pin.validated = true :=
      fun n o h => hr n o (pre_read h).1
    cases he with
    | bad => exact ⟨hi, fun n o h => by (rw [e1] at h; cases h), hr0⟩
    | disc => exact ⟨hi, fun n o h => by (rw [e1] at h; cases h), hr0⟩
    | first o b d hb hp sw _ h =>
      rcases h with ⟨rfl, _⟩ | ⟨rfl, _⟩
      · exact ⟨hi, fun n o h => by (rw [e1] at h; cases h), hr0⟩
      · refine ⟨hi, fun n o h => by (rw [show _ = _ from e1] at h; cases h), fun n o' h h' hpr => ?_⟩
        cases h'
        exact hp hpr
    | next o b d hb off ho hp hd sw _ h =>
      rcases h with rfl | rfl
      · exact ⟨hi, fun n o h => by (rw [show _ = _ from e1] at h; cases h), fun n o h => by (cases h)⟩
      · refine ⟨hi, fun n o h => by (rw [show _ = _ from e1] at h; cases h), fun n o' h h' hpr => hr0 _ o' ho h' hpr⟩
  | verify h _ _ _ he =>
    refine key ?_ (by rw [h]; decide) (by rw [h]; decide) ?_
    · refine fits_same ?_ hi
      cases he with
      | chk _ _ _ _ _ _ h => exact (chk_pinOnly h).objs
      | right _ _ _ _ _ h => exact (chk_pinOnly h).objs
      | _ => rfl
    · cases he with
      | chk _ _ _ _ _ _ h => exact chk_pos h
      | right _ _ _ _ _ h => obtain h := chk_pos h; exact h
      | _ => exact ⟨rfl, rfl⟩
  | chg h _ _ _ he =>
    refine key ?_ (by rw [h]; decide) (by rw [h]; decide) ?_
    · refine fits_same ?_ hi
      cases he with
      | bad => rfl
      | fail _ _ _ _ _ _ _ h => exact (vtu_pinOnly h).objs
      | flagIo _ _ _ _ _ _ h => exact (vtu_pinOnly h).objs
      | done _ _ _ _ _ _ _ h hf => exact ((vtu_pinOnly h).trans (setDflt_pinOnly hf)).objs
    · cases he with
      | bad => exact ⟨rfl, rfl⟩
      | fail _ _ _ _ _ _ _ h => exact vtu_pos h
      | flagIo _ _ _ _ _ _ h => exact vtu_pos h
      | done _ _ _ _ _ _ _ h hf => exact vtu_pos h
  | rrc h _ _ _ he =>
    refine key ?_ (by rw [h]; decide) (by rw [h]; decide) ?_
    · refine fits_same ?_ hi
      cases he with
      | bad => rfl
      | fail _ _ _ _ _ _ h => exact (vtu_pinOnly h).objs
      | done _ _ _ _ _ h => exact (vtu_pinOnly h).objs
    · cases he with
      | bad => exact ⟨rfl, rfl⟩
      | fail _ _ _ _ _ _ h => exact vtu_pos h
      | done _ _ _ _ _ h => exact vtu_pos h
  | ga h _ _ he =>
    refine key hi (by rw [h]; decide) (by rw [h]; decide) ?_
    cases he with
    | bad => exact ⟨rfl, rfl⟩
    | run k hk m hm t ht _ _ h =>
      cases h with
      | fail _ _ _ _ _ ha => rcases ha with rfl | rfl | rfl <;> exact ⟨rfl, rfl⟩
      | _ => exact ⟨rfl, rfl⟩
  | put h _ _ _ he =>
    have e2 : (pre i.c r).read = none := pre_none' (by rw [h]; decide)
    have hw0 : ∀ n o, (pre i.c r).write = some n → (pre i.c r).path = some o → ((f.objs o).getD []).length + n ≤ cap o :=
      fun n o h => hw n o (pre_write h).1
    have nr : ∀ {r' : Ram}, r'.read = (pre i.c r).read → ∀ n o, r'.read = some n → r'.path = some o → Protected o →
        r'.pin.validated = true := fun e n o h => by (rw [e, e2] at h; cases h)
    cases he with
    | no => exact ⟨hi, hw0, nr rfl⟩
    | bad => exact ⟨hi, hw0, nr rfl⟩
    | over => exact ⟨hi, fun n o h => by (cases h), nr rfl⟩
    | appIo _ _ n hn hl =>
      refine ⟨hi, fun m o h h' => ?_, nr rfl⟩
      cases h
      have := hw0 n o hn h'
      omega
    | app _ n hn hl o ho _ e =>
      have hc := hw0 n o hn ho
      refine ⟨Inst.fits (.obj (by simp; omega)) hi, fun m o' h h' => ?_, nr (by rw [e]; split <;> rfl)⟩
      rw [e] at h h'
      split at h
      · cases h
      · next hcla =>
        cases h
        rw [if_neg hcla, show _ = _ from ho] at h'
        cases h'
        simp [Flash.setObj]
        omega
    | first _ hn t d hd o ho hl _ e =>
      refine ⟨Inst.fits (.obj hl) hi, fun m o' h h' => ?_, nr (by rw [e]; split <;> rfl)⟩
      rw [e] at h h'
      split at h
      · next hc =>
        cases h
        rw [if_pos hc] at h'
        cases h'
        simp [Flash.setObj]
        omega
      · rw [hn] at h; cases h
  | adm h _ _ _ he =>
    have n1 : i.c.ins ≠ 0xDB := by rcases h with h | h | h <;> rw [h] <;> decide
    have n2 : i.c.ins ≠ 0xC0 := by rcases h with h | h | h <;> rw [h] <;> decide
    cases he with
    | bad => exact key hi n1 n2 ⟨rfl, rfl⟩
    | done _ _ _ hf _ _ => exact key (fits_same hf.objs hi) n1 n2 ⟨rfl, rfl⟩
  | set h _ _ he =>
    refine key (fits_same ?_ hi) (by rw [h]; decide) (by rw [h]; decide) ⟨rfl, rfl⟩
    cases he <;> rfl
  | reset h _ _ _ he =>
    cases he with
    | bad => exact key hi (by rw [h]; decide) (by rw [h]; decide) ⟨rfl, rfl⟩
    | done n m hn _ hm _ _ _ hf =>
      obtain ⟨a, e⟩ := hf.ram
      exact poff (hf.inst.fits hi) e
  | info h =>
    by_cases h1 : i.c.ins = 0xDB
    · rw [h1] at h; exact absurd h (by decide)
    · by_cases h2 : i.c.ins = 0xC0
      · rw [h2] at h; exact absurd h (by decide)
      · exact key hi h1 h2 ⟨rfl, rfl⟩

/-- Objects fit after a command that was interrupted, too. -/
theorem peffCut {f' : Flash} (hi : Fits f)
    (hw : ∀ n o, r.write = some n → r.path = some o → ((f.objs o).getD []).length + n ≤ cap o)
    (h : PEff A x i f r .cut f' r') : Fits f' := by
  cases h with
  | verify _ _ _ _ he => cases he <;> exact hi
  | chg _ _ _ _ he => cases he with
    | bad => exact hi
    | cut _ _ h => exact fits_same h.objs hi
  | rrc _ _ _ _ he => cases he with
    | bad => exact hi
    | cut _ _ h => exact fits_same h.objs hi
  | put _ _ _ _ he => cases he <;> exact hi
  | adm _ _ _ _ he => cases he with
    | bad => exact hi
    | cut _ _ h => rcases h with rfl | ⟨_, h, _⟩; exact hi; exact fits_same h.objs hi
  | set _ _ _ he => cases he with
    | bad => exact hi
    | cut _ _ h => rcases h with rfl | ⟨_, rfl⟩; exact hi; exact fits_same rfl hi
  | reset _ _ _ _ he => cases he with
    | bad => exact hi
    | cut _ _ h => exact h.fits hi
  | _ => exact hi

theorem inv32_step (hx : x.Ok) {s : St} {log : List Entry} {op : Op} {env : Env} (hi : Inv32 s log) :
    Inv32 (step x s op env).1 ((s, op, (step x s op env).2) :: log) := by
  obtain ⟨h1, h2, h3⟩ := hi
  have h2' := inv31_step hx (op := op) (env := env) h2
  have he := step_eff (A := anyFault) hx s op (anyAll env)
  generalize hg : step x s op env = q at he h2'
  obtain ⟨s', o'⟩ := q
  cases he with
  | off => exact ⟨h1, h2', fun r h => by (cases h)⟩
  | apdu f r i a f' r' h =>
    obtain ⟨h4, h5⟩ := peff32 h1 (h3 r rfl).1 (h3 r rfl).2 h
    exact ⟨h4, h2', fun r h => by (cases h; exact h5)⟩
  | apduCut f r i f' r' h => exact ⟨peffCut h1 (h3 r rfl).1 h, h2', fun r h => by (cases h)⟩
  | desel f r =>
    obtain ⟨h4, h5⟩ := poff (r := r) (r' := poweroff r) (a := r.alg) h1 rfl
    exact ⟨h4, h2', fun r h => by (cases h; exact h5)⟩
  | fac f r rnd a f' r' h =>
    obtain ⟨a, e⟩ := h.ram
    obtain ⟨h4, h5⟩ := poff (h.inst.fits h1) e
    exact ⟨h4, h2', fun r h => by (cases h; exact h5)⟩
  | facCut f r rnd f' h => exact ⟨h.fits h1, h2', fun r h => by (cases h)⟩
  | boot f o rnd a f' r' h =>
    obtain ⟨a, e⟩ := h.ram
    obtain ⟨h4, h5⟩ := poff (h.inst.fits h1) e
    exact ⟨h4, h2', fun r h => by (cases h; exact h5)⟩
  | bootCut f o rnd f' h => exact ⟨h.fits h1, h2', fun r h => by (cases h)⟩

theorem inv32_run (hx : x.Ok) (hf : Fits f) (h : List (Op × Env)) : Inv32 (after x f h) (logOf x f h) := by
  refine run_inv (A := anyFault) (fun s log op env _ hi => inv32_step hx hi) (fun e _ => anyAll e.2) ?_
  exact ⟨hf, fun r h => by (cases h), fun r h => by (cases h)⟩

/-- **C32 (capacity).** Whatever is sent, and whatever happens to the storage, no object ever gets larger than its
capacity. -/
theorem C32_capacity (hx : x.Ok) (hf : Fits f) (h : List (Op × Env)) : Fits (after x f h).flash :=
  (inv32_run hx hf h).1

/-- **C32 (protected objects).** Data that GET DATA or GET RESPONSE returns are the discovery object or a piece of a
stored object; of the printed information, the fingerprints and the face only if the PIN was presented in this
session and not revoked since. -/
theorem C32_protected (hx : x.Ok) (hf : Fits f) (h : List (Op × Env)) (i : In) (hins : i.c.ins = 0xCB ∨ i.c.ins = 0xC0)
    (env : Env) (d : Bytes) (sw : Nat) (hd : d ≠ [])
    (ho : (step x (after x f h) (.apdu i) env).2 = .reply (.resp d sw)) :
    (d = discovery ∧ sw = 0x9000) ∨
    ∃ o b, (after x f h).flash.objs o = some b ∧ d <:+: b ∧ (Protected o → PinShown (logOf x f h)) := by
  have hi := inv32_run hx hf h
  generalize after x f h = s at hi ho ⊢
  generalize logOf x f h = log at hi ⊢
  have he := step_eff (A := anyFault) hx s (.apdu i) (anyAll env)
  rw [ho] at he
  generalize (step x s (.apdu i) env).1 = s' at he
  cases he with
  | apdu f r _ _ f' r' h =>
    obtain ⟨_, h31, hpos⟩ := hi
    have hv := (h31 r rfl).1
    have hr := (hpos r rfl).2
    have hno : ∀ o : Outcome Reply, Bad o → o ≠ .done (.resp d sw) := by
      rintro o (⟨u, rfl⟩ | ⟨sw', _, rfl⟩) e
      · cases e
      · cases e; exact hd rfl
    have hget : ∀ r', GetEff anyFault f (pre i.c r) (.done (.resp d sw)) r' → (d = discovery ∧ sw = 0x9000) ∨
        ∃ o b, f.objs o = some b ∧ d <:+: b ∧ (Protected o → PinShown log) := by
      intro r' he
      cases he with
      | bad _ h => exact absurd rfl (hno _ h)
      | disc => exact .inl ⟨rfl, rfl⟩
      | first o b _ hb hp _ _ h =>
        refine .inr ⟨o, b, hb, ?_, fun h => hv (hp h)⟩
        rcases h with ⟨_, _, rfl⟩ | ⟨_, _, _, _, _, h⟩
        · exact List.infix_refl _
        · rw [h]; exact (List.take_prefix _ _).isInfix
      | next o b _ hb off hoff hp h =>
        refine .inr ⟨o, b, hb, ?_, fun hpr => hv (hr off o (pre_read hoff).1 hp hpr)⟩
        rw [h]
        exact (List.take_prefix _ _).isInfix.trans (List.drop_suffix _ _).isInfix
    cases h with
    | cla => exact absurd rfl hd
    | get _ _ _ he => exact hget _ he
    | sel h => rw [h] at hins; exact absurd hins (by decide)
    | verify h => rw [h] at hins; exact absurd hins (by decide)
    | chg h => rw [h] at hins; exact absurd hins (by decide)
    | rrc h => rw [h] at hins; exact absurd hins (by decide)
    | ga h => rw [h] at hins; exact absurd hins (by decide)
    | put h => rw [h] at hins; exact absurd hins (by decide)
    | adm h => rcases h with h | h | h <;> rw [h] at hins <;> exact absurd hins (by decide)
    | set h => rw [h] at hins; exact absurd hins (by decide)
    | reset h => rw [h] at hins; exact absurd hins (by decide)
    | info h => rcases hins with e | e <;> rw [e] at h <;> exact absurd h (by decide)

/-- **C32 (only PUT DATA writes).** Apart from RESET, a command other than PUT DATA leaves every object alone, and PUT
DATA changes at most one. -/
theorem C32_only_put_writes (hx : x.Ok) (s : St) (i : In) (hins : i.c.ins ≠ 0xFB) (env : Env) :
    (i.c.ins ≠ 0xDB → (step x s (.apdu i) env).1.flash.objs = s.flash.objs) ∧
    ∃ o, ∀ o', o' ≠ o → (step x s (.apdu i) env).1.flash.objs o' = s.flash.objs o' := by
  have he := step_eff (A := anyFault) hx s (.apdu i) (anyAll env)
  have key : ∀ {f f' : Flash} {r r' : Ram} {o : Outcome Reply}, PEff anyFault x i f r o f' r' →
      (i.c.ins ≠ 0xDB → f'.objs = f.objs) ∧ ∃ o, ∀ o', o' ≠ o → f'.objs o' = f.objs o' := by
    intro f f' r r' o h
    have same : f'.objs = f.objs → (i.c.ins ≠ 0xDB → f'.objs = f.objs) ∧ ∃ o, ∀ o', o' ≠ o → f'.objs o' = f.objs o' :=
      fun e => ⟨fun _ => e, .cert9A, fun _ _ => by rw [e]⟩
    have one : ∀ (o : Obj) (d : Bytes), ∀ o', o' ≠ o → (f.setObj o d).objs o' = f.objs o' :=
      fun o d o' h => by simp [Flash.setObj, h]
    cases h with
    | put h _ _ _ he =>
      cases he with
      | app _ _ _ _ o => exact ⟨fun h' => absurd h h', o, one o _⟩
      | first _ _ _ _ _ o => exact ⟨fun h' => absurd h h', o, one o _⟩
      | _ => exact same rfl
    | verify _ _ _ _ he =>
      apply same
      cases he with
      | chk _ _ _ _ _ _ h => exact (chk_pinOnly h).objs
      | right _ _ _ _ _ h => exact (chk_pinOnly h).objs
      | _ => rfl
    | chg _ _ _ _ he =>
      apply same
      cases he with
      | bad => rfl
      | cut _ _ h => exact h.objs
      | fail _ _ _ _ _ _ _ h => exact (vtu_pinOnly h).objs
      | flagIo _ _ _ _ _ _ h => exact (vtu_pinOnly h).objs
      | done _ _ _ _ _ _ _ h hf => exact ((vtu_pinOnly h).trans (setDflt_pinOnly hf)).objs
    | rrc _ _ _ _ he =>
      apply same
      cases he with
      | bad => rfl
      | cut _ _ h => exact h.objs
      | fail _ _ _ _ _ _ h => exact (vtu_pinOnly h).objs
      | done _ _ _ _ _ h => exact (vtu_pinOnly h).objs
    | adm _ _ _ _ he =>
      apply same
      cases he with
      | bad => rfl
      | done _ _ _ hf => exact hf.objs
      | cut _ _ hf => rcases hf with rfl | ⟨_, h, _⟩; rfl; exact h.objs
    | set _ _ _ he =>
      apply same
      cases he with
      | cut _ _ hf => rcases hf with rfl | ⟨_, rfl⟩ <;> rfl
      | _ => rfl
    | reset h => exact absurd h hins
    | _ => exact same rfl
  generalize step x s (.apdu i) env = q at he ⊢
  obtain ⟨s', o'⟩ := q
  cases he with
  | off => exact ⟨fun _ => rfl, .cert9A, fun _ _ => rfl⟩
  | apdu _ _ _ _ _ _ h => exact key h
  | apduCut _ _ _ _ _ h => exact key h

/-! ### Writing and reading back -/

theorem process_disp (hc : i.c.cla = 0 ∨ i.c.cla = 0x10 ∧ i.c.ins = 0xDB) {Q E X}
    (hw : wp A (dispatch x i) Q E X f (pre i.c r)) : wp A (process x i) Q E X f r := by
  unfold process
  apply wp_ite <;> intro h
  · rcases hc with hc | ⟨hc, hc'⟩
    · rw [hc] at h; cases h
    · rw [hc, hc'] at h; cases h
  · wps
    · have e : pre i.c r = { r with write := none, read := none } := by simp_all [pre]
      rw [← e]; exact hw
    · have e : pre i.c r = { r with write := none } := by simp_all [pre]
      rw [← e]; exact hw
    · have e : pre i.c r = { r with read := none } := by simp_all [pre]
      rw [← e]; exact hw
    · simp_all

/-- A command whose outcome is known. -/
theorem step_known {a : Reply} {f' : Flash} {env : Env} (he : env.all A)
    (h : wp A (process x i) (fun a' f1 r1 => a' = a ∧ f1 = f' ∧ r1 = r') (fun _ _ _ => False) (fun _ _ => False) f r) :
    step x ⟨f, some r⟩ (.apdu i) env = (⟨f', some r'⟩, .reply a) := by
  rcases exec_of_wp (P := fun o f1 r1 => match o with
    | .cut => False
    | .done a' => a' = a ∧ f1 = f' ∧ r1 = r') (wp_mono h (fun _ _ _ h => h) (fun _ _ _ h => h.elim) (fun _ _ h => h)) he with
    ⟨_, _, _, h⟩ | ⟨f1, r1, a1, e, rfl, rfl, rfl⟩
  · exact h.elim
  · exact e

theorem objOf_tag (o : Obj) : objOf (tagOf o) = some o := by cases o <;> rfl

theorem setObj_twice {o : Obj} {a b : Bytes} : (f.setObj o a).setObj o b = f.setObj o b := by
  simp only [Flash.setObj, Flash.mk.injEq, and_true]
  funext o'
  split <;> rfl

theorem put_first {last : Bool} {o : Obj} {d : Bytes} (hp : IsPut i last (objHdr o ++ d)) (ha : r.admin = true)
    (hw : r.write = none) (hl : d.length ≤ cap o) {env : Env} (he : env.all noFault) :
    step x ⟨f, some r⟩ (.apdu i) env = (⟨f.setObj o d, some (if last = false ∧ d.length < cap o then
      { r with write := some (cap o - d.length), path := some o, read := none } else { r with read := none })⟩,
      .reply (.sw 0x9000)) := by
  obtain ⟨h1, h2, h3, h4, h5⟩ := hp
  apply step_known he
  apply process_disp (by cases last <;> simp_all)
  rw [show dispatch x i = putData i.c by simp [dispatch, h2]]
  have hpre : pre i.c r = { r with read := none } := by simp [pre, h2]
  rw [hpre]
  unfold putData needAdmin
  wps
  all_goals simp only [h3, h4, h5, Apdu.Capdu.lc, objHdr, ha, hw, List.cons_append, List.nil_append, List.length_cons,
    List.getElem?_cons_succ, List.getElem?_cons_zero, Option.some.injEq, noFault, reduceCtorEq] at *
  all_goals try contradiction
  all_goals try subst_vars
  all_goals have hcap := capOf_eq (objOf_tag o)
  all_goals try simp only [objOf_tag, hcap, Option.some.injEq, reduceCtorEq] at *
  all_goals try contradiction
  all_goals try (exfalso; omega)
  all_goals subst_vars
  all_goals cases last
  all_goals simp_all

theorem put_more {last : Bool} {o : Obj} {d b : Bytes} {n : Nat} (hp : IsPut i last d) (ha : r.admin = true)
    (hw : r.write = some n) (hq : r.path = some o) (hb : f.objs o = some b) (hl : d.length ≤ n)
    {env : Env} (he : env.all noFault) :
    step x ⟨f, some r⟩ (.apdu i) env = (⟨f.setObj o (b ++ d), some (if last = false then
      { r with write := some (n - d.length), read := none } else { r with write := none, path := none, read := none })⟩,
      .reply (.sw 0x9000)) := by
  obtain ⟨h1, h2, h3, h4, h5⟩ := hp
  apply step_known he
  apply process_disp (by cases last <;> simp_all)
  rw [show dispatch x i = putData i.c by simp [dispatch, h2]]
  have hpre : pre i.c r = { r with read := none } := by simp [pre, h2]
  rw [hpre]
  unfold putData needAdmin
  wps
  all_goals simp only [h3, h4, h5, Apdu.Capdu.lc, ha, hw, hq, Option.some.injEq, noFault, reduceCtorEq] at *
  all_goals try contradiction
  all_goals try subst_vars
  all_goals try (exfalso; omega)
  all_goals cases last
  all_goals simp_all

theorem put_rest : ∀ (h : List (In × Env)) (f : Flash) (r : Ram) (log : List Entry) (o : Obj) (b d : Bytes),
    PutChain [] (h.map (·.1)) d → (∀ e ∈ h, e.2.all noFault) → r.admin = true → f.objs o = some b → r.path = some o →
    b.length + d.length ≤ cap o → r.write = some (cap o - b.length) → (∀ e ∈ log, Ok e.2.2) →
    let s := run x ⟨f, some r⟩ log (h.map fun e => (.apdu e.1, e.2))
    s.1 = ⟨f.setObj o (b ++ d), some { r with write := none, path := none, read := none }⟩ ∧ ∀ e ∈ s.2, Ok e.2.2 := by
  intro h
  induction h with
  | nil => exact fun _ _ _ _ _ _ h => h.elim
  | cons e h ih =>
    intro f r log o b d hc he ha hb hp hl hw hlog
    obtain ⟨i, env⟩ := e
    cases h with
    | nil =>
      intro s
      have e := put_more (x := x) (last := true) (by simpa [PutChain] using hc) ha hw hp hb (by omega)
        (he (i, env) (by simp))
      simp only [s, List.map_cons, List.map_nil, run, e]
      refine ⟨by simp, fun e he => ?_⟩
      rcases List.mem_cons.mp he with rfl | he
      · exact ⟨[], rfl⟩
      · exact hlog e he
    | cons e' h =>
      obtain ⟨d1, d2, rfl, hne, hi, hc⟩ := hc
      have hpos : 0 < d2.length := List.length_pos_iff.mpr hne
      simp at hl
      have e := put_more (x := x) (last := false) (d := d1) hi ha hw hp hb (by omega) (he (i, env) (by simp))
      simp only [List.map_cons, run, e]
      have := ih (f.setObj o (b ++ d1)) { r with write := some (cap o - b.length - d1.length), read := none }
        ((⟨f, some r⟩, .apdu i, .reply (.sw 0x9000)) :: log) o (b ++ d1) d2 hc (fun e h => he e (by simp [h])) ha
        (by simp [Flash.setObj]) hp (by simp; omega) (by simp; omega) (by
          intro e he
          rcases List.mem_cons.mp he with rfl | he
          · exact ⟨[], rfl⟩
          · exact hlog e he)
      simp only [setObj_twice, List.append_assoc, List.map_cons, if_true] at this ⊢
      exact this

/-- **C32 (writing).** A host with administrative rights that sends an object in any number of pieces of any size,
with at most the capacity of the object in total, is answered 9000 each time; afterwards the object consists of exactly
the bytes sent, and nothing else in flash has changed. -/
theorem C32_chained_put (o : Obj) (b : Bytes) (h : List (In × Env)) (hc : PutChain (objHdr o) (h.map (·.1)) b)
    (hl : b.length ≤ cap o) (he : ∀ e ∈ h, e.2.all noFault) (ha : r.admin = true) (hw : r.write = none) :
    let s := run x ⟨f, some r⟩ [] (h.map fun e => (.apdu e.1, e.2))
    s.1.flash = f.setObj o b ∧ (∀ e ∈ s.2, Ok e.2.2) ∧ ∃ r', s.1.ram = some r' ∧ r'.admin = true ∧ r'.write = none ∧
      r'.pin = r.pin := by
  cases h with
  | nil => exact hc.elim
  | cons e h =>
    obtain ⟨i, env⟩ := e
    cases h with
    | nil =>
      intro s
      have e := put_first (x := x) (f := f) (last := true) (by simpa [PutChain] using hc) ha hw hl (he (i, env) (by simp))
      simp only [s, List.map_cons, List.map_nil, run, e]
      refine ⟨trivial, ?_, _, rfl, ha, hw, rfl⟩
      intro e he
      simp at he; subst he; exact ⟨[], rfl⟩
    | cons e' h =>
      obtain ⟨d1, d2, rfl, hne, hi, hc⟩ := hc
      have hpos : 0 < d2.length := List.length_pos_iff.mpr hne
      simp at hl
      have e := put_first (x := x) (f := f) (last := false) hi ha hw (by omega) (he (i, env) (by simp))
      rw [if_pos ⟨rfl, by omega⟩] at e
      intro s
      obtain ⟨h1, h2⟩ := put_rest (x := x) (e' :: h) (f.setObj o d1)
        { r with write := some (cap o - d1.length), path := some o, read := none }
        [(⟨f, some r⟩, .apdu i, .reply (.sw 0x9000))] o d1 d2 hc (fun e h => he e (by simp [h])) ha
        (by simp [Flash.setObj]) rfl (by omega) rfl (by intro e he; simp at he; subst he; exact ⟨[], rfl⟩)
      have es : s = run x ⟨f.setObj o d1, some { r with write := some (cap o - d1.length), path := some o, read := none }⟩
          [(⟨f, some r⟩, .apdu i, .reply (.sw 0x9000))] ((e' :: h).map fun e => (.apdu e.1, e.2)) := by
        simp only [s, List.map_cons, run, e]
      rw [es]
      refine ⟨by rw [h1, setObj_twice], h2, ?_⟩
      rw [h1]
      exact ⟨_, rfl, ha, rfl, rfl⟩

/-! Reading. -/

theorem get_first {o : Obj} {b : Bytes} (hi : IsGet i o) (hb : f.objs o = some b) (hne : b ≠ [])
    (hp : Protected o → r.pin.validated = true) {env : Env} (he : env.all noFault) :
    step x ⟨f, some r⟩ (.apdu i) env = (⟨f, some (if b.length ≤ room i then { r with write := none, read := none }
      else { r with write := none, path := some o, read := some (room i) })⟩,
      .reply (.resp (b.take (room i)) (if b.length ≤ room i then 0x9000 else moreSw (b.length - room i)))) := by
  obtain ⟨h1, h2, h3, h4, h5⟩ := hi
  apply step_known he
  apply process_disp (by simp_all)
  rw [show dispatch x i = getData i.c by simp [dispatch, h2]]
  have hpre : pre i.c r = { r with write := none, read := none } := by simp [pre, h2]
  rw [hpre]
  unfold getData getLargeData
  wps
  all_goals simp only [h3, h4, h5, Apdu.Capdu.lc, objHdr, List.length_cons, List.length_nil,
    List.getElem?_cons_succ, List.getElem?_cons_zero, Option.some.injEq, noFault, reduceCtorEq] at *
  all_goals try contradiction
  all_goals try subst_vars
  all_goals try simp only [objOf_tag, Option.some.injEq, reduceCtorEq] at *
  all_goals try contradiction
  all_goals try (have e : o = _ := by assumption)
  all_goals try subst e
  all_goals try (next h => cases o <;> simp_all [tagOf, Protected]; done)
  · next hs _ _ hd h _ _ _ _ _ _ _ _ e =>
    rw [← e, hb] at hs hd; cases hs; cases hd
    have h : b.length ≤ room i := by simp [room] at h ⊢; omega
    rw [if_pos h, if_pos h]
    exact ⟨rfl, trivial, rfl⟩
  · next hs _ _ hd h _ _ _ _ _ _ _ _ e =>
    rw [← e, hb] at hs hd; cases hs; cases hd
    have h : ¬ b.length ≤ room i := by simp [room] at h ⊢; omega
    rw [if_neg h, if_neg h]
    have e1 : min i.c.le 1340 = room i := rfl
    rw [e1]
    have e2 : min (room i) b.length = room i := by omega
    simp only [List.length_take, e2, e]
    exact ⟨trivial, trivial, trivial⟩

theorem get_more {o : Obj} {b : Bytes} {off : Nat} (hi : IsMore i) (hb : f.objs o = some b) (hr : r.read = some off)
    (hp : r.path = some o) (ho : off ≤ b.length) {env : Env} (he : env.all noFault) :
    step x ⟨f, some r⟩ (.apdu i) env = (⟨f, some (if b.length ≤ off + room i then
        { r with write := none, read := none, path := none } else { r with write := none, read := some (off + room i) })⟩,
      .reply (.resp ((b.drop off).take (room i))
        (if b.length ≤ off + room i then 0x9000 else moreSw (b.length - (off + room i))))) := by
  obtain ⟨h1, h2⟩ := hi
  apply step_known he
  apply process_disp (by simp_all)
  rw [show dispatch x i = getDataResponse i.c by simp [dispatch, h2]]
  have hpre : pre i.c r = { r with write := none } := by simp [pre, h2]
  rw [hpre]
  have e1 : min i.c.le 1340 = room i := rfl
  unfold getDataResponse
  wps
  all_goals simp only [hr, hp, e1, Option.some.injEq, noFault, reduceCtorEq] at *
  all_goals try contradiction
  all_goals subst_vars
  · next _ off _ _ _ hs _ h hd =>
    rw [hb] at hs hd; cases hs; cases hd
    have h : b.length ≤ off + room i := by simp at h ⊢; omega
    rw [if_pos h, if_pos h]
    exact ⟨rfl, trivial, rfl⟩
  · next _ off _ _ _ hs _ h hd =>
    rw [hb] at hs hd; cases hs; cases hd
    have h : ¬ b.length ≤ off + room i := by simp at h ⊢; omega
    rw [if_neg h, if_neg h]
    have e2 : min (room i) (b.length - off) = room i := by omega
    simp only [List.length_take, List.length_drop, e2]
    exact ⟨trivial, trivial, trivial⟩
  · next h => rw [hb] at h; cases h
  · next h => rw [hb] at h; cases h

/-- The status word tells whether data are left. -/
def Status (left : Nat) (log : List Entry) : Prop :=
  if left = 0 then lastSw log = some 0x9000 else ∃ sw, lastSw log = some sw ∧ 0x6100 < sw ∧ sw ≤ 0x61FF

theorem moreSw_range {n : Nat} (h : 0 < n) : 0x6100 < moreSw n ∧ moreSw n ≤ 0x61FF := by
  unfold moreSw
  split
  · decide
  · constructor
    · show 0x6100 < 0x6100 + n; omega
    · show 0x6100 + n ≤ 0x61FF; omega

theorem read_rest (o : Obj) (b : Bytes) : ∀ (h : List (In × Env)) (r : Ram) (log : List Entry) (off : Nat),
    (∀ e ∈ h, IsMore e.1 ∧ e.2.all noFault) → f.objs o = some b → r.read = some off → r.path = some o → off < b.length →
    off + (h.dropLast.map (fun e => room e.1)).sum < b.length → received log = b.take off →
    Status (b.length - off) log →
    let s := run x ⟨f, some r⟩ log (h.map fun e => (.apdu e.1, e.2))
    let n := off + (h.map (fun e => room e.1)).sum
    s.1.flash = f ∧ received s.2 = b.take n ∧ Status (b.length - n) s.2 := by
  intro h
  induction h with
  | nil =>
    intro r log off _ _ _ _ _ _ h1 h2
    exact ⟨rfl, by simpa [run] using h1, by simpa [run] using h2⟩
  | cons e h ih =>
    obtain ⟨i, env⟩ := e
    intro r log off he hb hr hp ho hs h1 h2
    have e := get_more (x := x) (he (i, env) (by simp)).1 hb hr hp (by omega) (he (i, env) (by simp)).2
    have h1' : ∀ sw, received ((⟨f, some r⟩, .apdu i, .reply (.resp ((b.drop off).take (room i)) sw)) :: log) =
        b.take (off + room i) := by
      intro sw
      simp only [received, h1]
      rw [List.take_add]
    by_cases hl : b.length ≤ off + room i
    · have hn : h = [] := by
        cases h with
        | nil => rfl
        | cons e' h => simp [List.dropLast] at hs; omega
      subst hn
      simp only [List.map_cons, List.map_nil, run, e, if_pos hl, List.sum_cons, List.sum_nil, Nat.add_zero]
      refine ⟨trivial, h1' _, ?_⟩
      unfold Status
      rw [if_pos (by omega)]
      rfl
    · simp only [List.map_cons, run, e, if_neg hl, List.sum_cons]
      have := ih { r with write := none, read := some (off + room i) }
        ((⟨f, some r⟩, .apdu i, .reply (.resp ((b.drop off).take (room i)) (moreSw (b.length - (off + room i))))) :: log)
        (off + room i) (fun e h => he e (by simp [h])) hb rfl hp (by omega) (by
          cases h with
          | nil => simp; omega
          | cons e' h => simp only [List.dropLast_cons_cons, List.map_cons, List.sum_cons] at hs; omega) (h1' _) (by
          unfold Status
          rw [if_neg (by omega)]
          exact ⟨_, rfl, moreSw_range (by omega)⟩)
      simpa only [Nat.add_assoc] using this

/-- **C32 (reading).** GET DATA for a non-empty object (after the PIN, if it is protected) and then any number of GET
RESPONSE commands, with any `Le`, yield exactly as much of the object as the `Le` allow: nothing is missing, repeated
or altered at the boundaries, and the status word is 9000 exactly when the object is complete, 61xx before. Reading
changes nothing. (GET RESPONSE is only used while data are left.) -/
theorem C32_read_back (o : Obj) (b : Bytes) (hb : f.objs o = some b) (hne : b ≠ [])
    (hp : Protected o → r.pin.validated = true) (i : In) (hi : IsGet i o) (env : Env) (henv : env.all noFault)
    (h : List (In × Env)) (he : ∀ e ∈ h, IsMore e.1 ∧ e.2.all noFault)
    (hs : h ≠ [] → room i + (h.dropLast.map (fun e => room e.1)).sum < b.length) :
    let s := run x ⟨f, some r⟩ [] ((.apdu i, env) :: h.map fun e => (.apdu e.1, e.2))
    let n := room i + (h.map (fun e => room e.1)).sum
    s.1.flash = f ∧ received s.2 = b.take n ∧ Status (b.length - n) s.2 := by
  have e := get_first (x := x) hi hb hne hp henv
  by_cases hl : b.length ≤ room i
  · have hn : h = [] := by
      by_cases hn : h = []
      · exact hn
      · have := hs hn; omega
    subst hn
    simp only [List.map_nil, run, e, if_pos hl, List.sum_nil, Nat.add_zero]
    refine ⟨trivial, by simp [received], ?_⟩
    unfold Status
    rw [if_pos (by omega)]
    rfl
  · simp only [run, e, if_neg hl]
    refine read_rest o b h _ _ (room i) he hb rfl rfl (by omega) ?_ (by simp [received]) ?_
    · by_cases hn : h = []
      · subst hn; simp; omega
      · exact hs hn
    · unfold Status
      rw [if_neg (by omega)]
      exact ⟨_, rfl, moreSw_range (by omega)⟩

end Verif.Piv
