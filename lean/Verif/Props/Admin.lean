import Verif.Lemmas.Admin
/-
C27: the admin PIN gates the admin commands. C28: the serial number is written once. C29: factory reset.
-/
set_option linter.unusedSimpArgs false
namespace Verif.Admin
open Verif.Spec.Admin Cmd

section
variable {σ τ : Type} {x : Ext σ τ}

theorem exec_of_wp {A : Fault → Prop} {m : M σ τ Reply} {f : Flash σ} {r : Ram τ}
    {P : Outcome Reply → Flash σ → Ram τ → Prop}
    (h : wp A m (fun a => P (.done a)) (fun e => P (.done e)) (P .cut) f r) {env : Env} (henv : env.all A) :
    (∃ f' r', exec m f r env = (⟨f', none⟩, .cut) ∧ P .cut f' r') ∨
    (∃ f' r' a, exec m f r env = (⟨f', some r'⟩, .reply a) ∧ P (.done a) f' r') := by
  have h1 := runCmd_of_wp h henv
  unfold exec
  cases hr : runCmd m f r env with
  | mk f' p =>
    obtain ⟨r', o⟩ := p
    rw [hr] at h1
    cases o with
    | cut => exact .inl ⟨f', r', rfl, h1⟩
    | done a => exact .inr ⟨f', r', a, rfl, h1⟩

theorem anyAll (env : Env) : env.all anyFault := fun _ => trivial

theorem boot_step {s : St σ τ} {t : τ} {env : Env} :
    (step x s (.boot t) env).1.flash.sn = s.flash.sn ∧ Fresh (step x s (.boot t) env).1 := by
  have h := boot_wp (A := anyFault) (x := x) (f := s.flash) (r := Ram.init t) env (anyAll env)
  rw [Cmd.lift_run] at h
  have e : step x s (.boot t) env = match boot x ⟨s.flash, Ram.init t, env⟩ with
      | (none, w) => (⟨w.flash, none⟩, .cut)
      | (some _, w) => (⟨w.flash, some w.ram⟩, .none) := rfl
  rw [e]
  cases hb : boot x ⟨s.flash, Ram.init t, env⟩ with
  | mk o w =>
    rw [hb] at h
    cases o with
    | none => exact ⟨h, fun r hr => by cases hr⟩
    | some _ =>
      refine ⟨h.1.1, fun r hr => ?_⟩
      cases hr
      rw [h.1.2]

theorem other_eff {A : Fault → Prop} {m : Sub σ τ Reply} {f : Flash σ} {r : Ram τ} :
    wp A (onOther m) (fun _ => Kept f r) (fun _ => Kept f r) (Kept f r) f r :=
  wp_onOther (fun _ _ _ _ _ => ⟨rfl, rfl, rfl⟩) (fun _ _ => ⟨rfl, rfl, rfl⟩)

theorem ndef_eff {A : Fault → Prop} {j : Ndef.In} {f : Flash σ} {r : Ram τ} :
    wp A (onNdef (Ndef.process j)) (fun _ => Kept f r) (fun _ => Kept f r) (Kept f r) f r :=
  wp_any_ndef (ndefProcess_any j) (fun _ _ _ => ⟨rfl, rfl, rfl⟩) (fun _ _ _ => ⟨rfl, rfl, rfl⟩)
    (fun _ _ => ⟨rfl, rfl, rfl⟩)

/-! ### C27 -/

/-- A running device with a verified PIN has an authorisation in its log. -/
def Inv (s : St σ τ) (log : List (St σ τ × Op σ τ × Out)) : Prop :=
  ∀ r, s.ram = some r → r.pin.validated = true → Authorised log

theorem inv_step {s : St σ τ} {log : List (St σ τ × Op σ τ × Out)} {op : Op σ τ} {env : Env}
    (hx : x.neq ≠ 0 ∧ x.neq ≠ 1) (hi : Inv s log) :
    Inv (step x s op env).1 ((s, op, (step x s op env).2) :: log) := by
  intro r' hr' hv'
  obtain ⟨f, ro⟩ := s
  cases op with
  | boot t => exact absurd (boot_step.2 r' hr') (by rw [hv']; decide)
  | deselect =>
    cases ro with
    | none => cases hr'
    | some r => cases hr'; cases hv'
  | other m =>
    cases ro with
    | none => cases hr'
    | some r =>
      have h := exec_of_wp (P := fun _ => Kept f r) (other_eff (A := anyFault) (m := m)) (anyAll env)
      have e : step x ⟨f, some r⟩ (.other m) env = exec (onOther m) f r env := rfl
      rw [e] at hr' ⊢
      rcases h with ⟨f', r1, he, h⟩ | ⟨f', r1, a, he, h⟩ <;> rw [he] at hr' ⊢ <;> cases hr'
      exact ⟨by simp, hi r rfl (by rw [← h.val]; exact hv')⟩
  | ndef j =>
    cases ro with
    | none => cases hr'
    | some r =>
      have h := exec_of_wp (P := fun _ => Kept f r) (ndef_eff (A := anyFault) (j := j)) (anyAll env)
      have e : step x ⟨f, some r⟩ (.ndef j) env = exec (onNdef (Ndef.process j)) f r env := rfl
      rw [e] at hr' ⊢
      rcases h with ⟨f', r1, he, h⟩ | ⟨f', r1, a, he, h⟩ <;> rw [he] at hr' ⊢ <;> cases hr'
      exact ⟨by simp, hi r rfl (by rw [← h.val]; exact hv')⟩
  | apdu i =>
    cases ro with
    | none => cases hr'
    | some r =>
      have h := exec_of_wp (process_eff (A := anyFault) (x := x) (i := i) (f := f) (r := r) hx) (anyAll env)
      have e : step x ⟨f, some r⟩ (.apdu i) env = exec (process x i) f r env := rfl
      rw [e] at hr' ⊢
      rcases h with ⟨f', r1, he, h⟩ | ⟨f', r1, a, he, h⟩ <;> rw [he] at hr' ⊢ <;> cases hr'
      have hi := hi r rfl
      refine ⟨by simp, ?_⟩
      cases h with
      | same h h0 h1 h2 =>
        rw [if_neg (show ¬ IsVerify i.c from h)]
        split
        · next h21 =>
          rcases h1 h21 with h | h | h
          · cases h
          · cases h; exact ⟨.inl rfl, hi hv'⟩
          · cases h; exact ⟨.inr (.inr rfl), hi hv'⟩
        · split
          · next h50 =>
            refine ⟨fun h => h0 (.inr (.inr h50)) ?_, hi hv'⟩
            cases h; rfl
          · exact hi hv'
      | verify _ _ hI h =>
        rw [if_pos (show IsVerify i.c from hI)]
        cases h with
        | bad => cases hv'
        | wrong => cases hv'
        | ok _ _ _ _ hr => exact hr
        | okIo hr => exact hr
      | change _ _ h21 hv h =>
        rw [if_neg (fun h : IsVerify i.c => by have := h.1; rw [h21] at this; exact absurd this (by decide)), if_pos h21]
        cases h with
        | refuse sw h => rcases h with rfl | rfl
                         · exact ⟨.inl rfl, hi hv'⟩
                         · exact ⟨.inr (.inl rfl), hi hv'⟩
        | io => cases hv'
        | done => cases hv'
      | sn _ _ h30 hv h =>
        rw [if_neg (fun h : IsVerify i.c => by have := h.1; rw [h30] at this; exact absurd this (by decide)),
          if_neg (by rw [h30]; decide), if_neg (by rw [h30]; decide)]
        exact hi hv
      | factory _ _ h50 h =>
        rw [if_neg (fun h : IsVerify i.c => by have := h.1; rw [h50] at this; exact absurd this (by decide)),
          if_neg (by rw [h50]; decide), if_pos h50]
        cases h with
        | refuse sw h _ => exact ⟨fun e => by cases e; exact h rfl, hi hv'⟩
        | run _ _ _ _ _ _ _ _ h =>
          cases h with
          | part _ _ _ ho _ hp =>
            rcases ho with ho | ho
            · cases ho
            · cases ho
              exact ⟨fun h => by (cases h), hi (hp hv')⟩
          | done _ _ _ _ _ _ hrp => rw [hrp] at hv'; cases hv'
      | other _ _ hI hv h =>
        rw [if_neg (fun h => hI.1 h.1), if_neg hI.2.1, if_neg hI.2.2.2.1]
        exact hi hv

theorem inv_run (hx : x.neq ≠ 0 ∧ x.neq ≠ 1) {h : List (Op σ τ × Env)} :
    ∀ {s : St σ τ} {log : List (St σ τ × Op σ τ × Out)}, Inv s log → Inv (run x s log h).1 (run x s log h).2 := by
  induction h with
  | nil => intro s log hi; exact hi
  | cons e h ih => intro s log hi; exact ih (inv_step hx hi)

theorem process_locked {i : In} {f : Flash σ} {r : Ram τ} {env : Env} (hi : i.c.ins ∉ openIns)
    (hv : r.pin.validated = false) : exec (process x i) f r env = (⟨f, some r⟩, .reply (.sw 0x6982)) := by
  simp only [openIns, List.mem_cons, List.not_mem_nil, or_false, not_or] at hi
  obtain ⟨h1, h2, h3, h4, h5, h6⟩ := hi
  have h := exec_of_wp (A := fun a => a = a) (m := process x i) (f := f) (r := r)
    (P := fun o f' r' => o = .done (.sw 0x6982) ∧ f' = f ∧ r' = r) (env := env) (by
      unfold process
      simp only [Cmd.throw_bind, Cmd.pure_bind, beq_iff_eq, h1, h2, h3, h4, h5, h6, if_false]
      apply wp_bind; apply wp_get
      rw [hv]
      simp only [Bool.not_false, if_true]
      exact wp_throw ⟨rfl, rfl, rfl⟩) (fun _ => rfl)
  rcases h with ⟨f', r', he, h, _⟩ | ⟨f', r', a, he, h, rfl, rfl⟩
  · cases h
  · cases h; exact he

/-- C27: after any history from power-up, under any faults and whatever the other applets do, a command of the
admin applet other than the open ones (SELECT, READ VERSION, READ SN, NFC ENABLE, FACTORY RESET, VERIFY) is
answered with 6982 and changes nothing at all, unless the admin PIN was presented since power-up, the last
applet switch, PIN change, factory reset and failed VERIFY. -/
theorem C27_gate (x : Ext σ τ) (hx : x.neq ≠ 0 ∧ x.neq ≠ 1) (s : St σ τ) (hs : Fresh s) (h : List (Op σ τ × Env))
    (i : In) (env : Env) (hi : i.c.ins ∉ openIns) (hon : (run x s [] h).1.ram ≠ none)
    (ha : ¬ Authorised (run x s [] h).2) :
    step x (run x s [] h).1 (.apdu i) env = ((run x s [] h).1, .reply (.sw 0x6982)) := by
  have hinv := inv_run hx (h := h) (s := s) (log := []) (fun r hr hv => by rw [hs r hr] at hv; cases hv)
  generalize (run x s [] h).2 = log at *
  generalize (run x s [] h).1 = t at *
  obtain ⟨f, ro⟩ := t
  cases ro with
  | none => exact absurd rfl hon
  | some r =>
    cases hv : r.pin.validated with
    | true => exact absurd (hinv r rfl hv) ha
    | false => exact process_locked hi hv

/-- C27: the gate opens: a VERIFY that presents the stored PIN is, without faults, answered with 9000, and CONFIG
is then accepted. -/
theorem C27_verified_may_configure (x : Ext σ τ) (hx : x.neq ≠ 0 ∧ x.neq ≠ 1) (f : Flash σ) (r : Ram τ) (i j : In)
    (env env' : Env) (hn : env.all noFault) (hn' : env'.all noFault) (hi : IsVerify i.c) (hr : RightPin f i.c)
    (hd : ∃ p d, f.pin = some p ∧ p.dflt = some d) (hj : j.c.ins = 0x40)
    (hp : j.c.p1 = 1 ∨ j.c.p1 = 4 ∨ j.c.p1 = 5) :
    (step x ⟨f, some r⟩ (.apdu i) env).2 = .reply (.sw 0x9000) ∧
    (step x (step x ⟨f, some r⟩ (.apdu i) env).1 (.apdu j) env').2 = .reply (.sw 0x9000) := by
  have e : step x ⟨f, some r⟩ (.apdu i) env = exec (process x i) f r env := rfl
  have e1 : process x i = verify x i := by
    unfold process
    simp only [hi.1]
    rfl
  have h := exec_of_wp (verify_eff (A := noFault) (x := x) (i := i) (f := f) (r := r) hx
    (fun h => hi.2.2.2 (List.length_eq_zero_iff.mp h)) ⟨hi.2.1, hi.2.2.1⟩) hn
  have hio : ¬ Pin.Io noFault f.pin := by
    rintro (h | h)
    · cases h
    · obtain ⟨p, d, hp, hd⟩ := hd
      obtain ⟨q, n, hq, hn, -⟩ := hr
      rw [hp] at hq; cases hq
      rcases h p hp with h | h
      · rw [h] at hn; cases hn
      · rw [h] at hd; cases hd
  rw [e, e1]
  have hok : ∃ f' r', exec (verify x i) f r env = (⟨f', some r'⟩, .reply (.sw 0x9000)) ∧ r'.pin = ⟨true⟩ := by
    rcases h with ⟨f', r1, he, h⟩ | ⟨f', r1, a, he, h⟩
    · cases h with | cut _ h => cases h
    · cases h with
      | bad sw h hsw hio' hr' =>
        by_cases hs : sw = SW.unable
        · exact absurd (hio' hs) hio
        · exact absurd hr (hr' hs)
      | wrong _ _ _ _ _ _ _ h => exact absurd hr h
      | ok p d _ _ _ => exact ⟨_, _, he, rfl⟩
      | okIo _ h => exact absurd h hio
  obtain ⟨f', r', he, hv⟩ := hok
  rw [he]
  refine ⟨rfl, ?_⟩
  have h2 := exec_of_wp (A := noFault) (m := process x j) (f := f') (r := r')
    (P := fun o _ _ => o = .done (.sw 0x9000)) (env := env') (by
      unfold process
      simp only [Cmd.throw_bind, Cmd.pure_bind, beq_iff_eq, hj]
      simp only [show ¬ ((0x40 : Byte) = 0xA4) by decide, show ¬ ((0x40 : Byte) = 0x31) by decide,
        show ¬ ((0x40 : Byte) = 0x32) by decide, show ¬ ((0x40 : Byte) = 0x14) by decide,
        show ¬ ((0x40 : Byte) = 0x50) by decide, show ¬ ((0x40 : Byte) = 0x20) by decide, if_false]
      apply wp_bind; apply wp_get
      rw [hv]
      simp only [Bool.not_true, Bool.false_eq_true, if_false]
      unfold gated
      simp only [hj]
      simp only [show ((0x40 : Byte) == 0x01 || (0x40 : Byte) == 0x02 || (0x40 : Byte) == 0x11 ||
        (0x40 : Byte) == 0x12 || (0x40 : Byte) == 0x43 || (0x40 : Byte) == 0x44) = false by decide,
        show ((0x40 : Byte) == 0x03) = false by decide, show ((0x40 : Byte) == 0x04) = false by decide,
        show ((0x40 : Byte) == 0x05) = false by decide, show ((0x40 : Byte) == 0x07) = false by decide,
        show ((0x40 : Byte) == 0x08) = false by decide, show ((0x40 : Byte) == 0x13) = false by decide,
        show ((0x40 : Byte) == 0x09) = false by decide, show ((0x40 : Byte) == 0x21) = false by decide,
        show ((0x40 : Byte) == 0x30) = false by decide, Bool.false_eq_true, if_false, BEq.rfl, if_true]
      unfold config
      simp only [Cmd.throw_bind]
      have tail : ∀ r' : Ram τ, wp noFault (do
          let r ← Cmd.get
          Cmd.wrOr (fun f => some { f with cfg := some r.cfg }) ioErr
          return .sw SW.ok : M σ τ Reply) (fun a _ _ => (Outcome.done a) = .done (.sw 0x9000))
          (fun e _ _ => (Outcome.done e) = .done (.sw 0x9000)) (fun _ _ => False) f' r' := by
        intro r'
        apply wp_bind; apply wp_get
        apply wp_bind; apply wp_wrOr
        · intro f' hf; exact wp_pure rfl
        · intro h; cases h
        · intro h; cases h
        · intro h; cases h
      refine wp_mono (X := fun _ _ => False) ?_ (fun _ _ _ h => h) (fun _ _ _ h => h) (fun _ _ h => h.elim)
      rcases hp with hp | hp | hp <;> rw [hp]
      · simp only [BEq.rfl, if_true]; apply wp_bind; apply wp_mod; exact tail _
      · simp only [show ((4 : Byte) == 1) = false by decide, Bool.false_eq_true, if_false, BEq.rfl, if_true]
        apply wp_bind; apply wp_mod; exact tail _
      · simp only [show ((5 : Byte) == 1) = false by decide, show ((5 : Byte) == 4) = false by decide,
          Bool.false_eq_true, if_false, BEq.rfl, if_true]
        apply wp_bind; apply wp_mod; exact tail _) hn'
  have e2 : step x ⟨f', some r'⟩ (.apdu j) env' = exec (process x j) f' r' env' := rfl
  rw [e2]
  rcases h2 with ⟨_, _, he2, h⟩ | ⟨_, _, a, he2, h⟩
  · cases h
  · cases h; rw [he2]

/-! ### C28 -/

theorem sn_step (hx : x.neq ≠ 0 ∧ x.neq ≠ 1) {s : St σ τ} {d : Bytes} (hs : s.flash.sn = some d) {op : Op σ τ}
    {env : Env} (he : env.all cutsOnly) : (step x s op env).1.flash.sn = some d := by
  obtain ⟨f, ro⟩ := s
  have hs : f.sn = some d := hs
  cases op with
  | boot t => rw [boot_step.1]; exact hs
  | deselect => cases ro <;> exact hs
  | other m =>
    cases ro with
    | none => exact hs
    | some r =>
      have h := exec_of_wp (P := fun _ => Kept f r) (other_eff (A := cutsOnly) (m := m)) he
      have e : step x ⟨f, some r⟩ (.other m) env = exec (onOther m) f r env := rfl
      rw [e]
      rcases h with ⟨f', r1, he, h⟩ | ⟨f', r1, a, he, h⟩ <;> rw [he] <;> exact h.sn.trans hs
  | ndef j =>
    cases ro with
    | none => exact hs
    | some r =>
      have h := exec_of_wp (P := fun _ => Kept f r) (ndef_eff (A := cutsOnly) (j := j)) he
      have e : step x ⟨f, some r⟩ (.ndef j) env = exec (onNdef (Ndef.process j)) f r env := rfl
      rw [e]
      rcases h with ⟨f', r1, he, h⟩ | ⟨f', r1, a, he, h⟩ <;> rw [he] <;> exact h.sn.trans hs
  | apdu i =>
    cases ro with
    | none => exact hs
    | some r =>
      have h := exec_of_wp (process_eff (A := cutsOnly) (x := x) (i := i) (f := f) (r := r) hx) he
      have e : step x ⟨f, some r⟩ (.apdu i) env = exec (process x i) f r env := rfl
      rw [e]
      have key : ∀ o f' r', Eff cutsOnly x i f r o f' r' → f'.sn = some d := by
        intro o f' r' h
        cases h with
        | same => exact hs
        | verify _ _ _ h => cases h <;> exact hs
        | change _ _ _ _ h => cases h <;> exact hs
        | sn _ _ _ _ h =>
          cases h with
          | refuse => exact hs
          | half _ _ hn _ hf =>
            rcases hn with hn | hn
            · rw [hs] at hn; cases hn
            · exact absurd rfl hn
          | cut => exact hs
          | done hn =>
            rcases hn with hn | hn
            · rw [hs] at hn; cases hn
            · exact absurd rfl hn
        | factory _ _ _ h =>
          cases h with
          | refuse => exact hs
          | cut => exact hs
          | run _ _ _ _ _ _ _ _ h =>
            cases h with
            | part _ _ _ _ h => rw [h]; exact hs
            | done _ _ h => rw [h]; exact hs
        | other _ _ _ _ h => rw [h.sn]; exact hs
      rcases h with ⟨f', r1, he, h⟩ | ⟨f', r1, a, he, h⟩ <;> rw [he] <;> exact key _ _ _ h

theorem sn_run (hx : x.neq ≠ 0 ∧ x.neq ≠ 1) {d : Bytes} {h : List (Op σ τ × Env)} :
    ∀ {s : St σ τ} {log : List (St σ τ × Op σ τ × Out)}, s.flash.sn = some d →
      (∀ e ∈ h, e.2.all cutsOnly) → (run x s log h).1.flash.sn = some d := by
  induction h with
  | nil => intro s log hs _; exact hs
  | cons e h ih =>
    intro s log hs he
    exact ih (sn_step hx hs (he e (.head _))) (fun e' h' => he e' (.tail _ h'))

theorem written_sn (hx : x.neq ≠ 0 ∧ x.neq ≠ 1) {s : St σ τ} {i : In} {env : Env} (hi : i.c.ins = 0x30)
    (hok : (step x s (.apdu i) env).2 = .reply (.sw 0x9000)) :
    i.c.data.length = 4 ∧ (step x s (.apdu i) env).1.flash.sn = some i.c.data := by
  obtain ⟨f, ro⟩ := s
  cases ro with
  | none => cases hok
  | some r =>
    have h := exec_of_wp (process_eff (A := anyFault) (x := x) (i := i) (f := f) (r := r) hx) (anyAll env)
    have e : step x ⟨f, some r⟩ (.apdu i) env = exec (process x i) f r env := rfl
    rw [e] at hok ⊢
    rcases h with ⟨f', r1, he, h⟩ | ⟨f', r1, a, he, h⟩ <;> rw [he] at hok ⊢ <;> cases hok
    cases h with
    | same _ h0 _ _ => exact absurd rfl (h0 (.inr (.inl hi)))
    | verify _ _ hI _ => rw [hI.1] at hi; exact absurd hi (by decide)
    | change _ _ hI _ _ => rw [hI] at hi; exact absurd hi (by decide)
    | sn _ _ _ _ h =>
      cases h with
      | refuse _ h => exact absurd rfl h
      | half _ ho _ _ _ => rcases ho with ho | ho <;> cases ho
      | done _ hl => exact ⟨hl, rfl⟩
    | factory _ _ hI _ => rw [hI] at hi; exact absurd hi (by decide)
    | other _ _ hI _ _ => exact absurd hi hI.2.2.1

theorem read_sn (hx : x.neq ≠ 0 ∧ x.neq ≠ 1) {f : Flash σ} {r : Ram τ} {d : Bytes} (hs : f.sn = some d)
    (hl : d.length = 4) {j : In} (hj : j.c.ins = 0x32 ∧ j.c.p1 = 0 ∧ j.c.p2 = 0 ∧ 4 ≤ j.c.le) {env : Env}
    (hn : env.all noFault) : (step x ⟨f, some r⟩ (.apdu j) env).2 = .reply (.resp d 0x9000) := by
  have h := exec_of_wp (process_eff (A := noFault) (x := x) (i := j) (f := f) (r := r) hx) hn
  have e : step x ⟨f, some r⟩ (.apdu j) env = exec (process x j) f r env := rfl
  rw [e]
  have key : ∀ o f' r', Eff noFault x j f r o f' r' → o = .done (.resp d 0x9000) := by
    intro o f' r' h
    cases h with
    | same _ _ _ h2 =>
      rcases h2 hj.1 hj.2.1 hj.2.2.1 hj.2.2.2 with ⟨_, h⟩ | ⟨d', rfl, h | h⟩
      · cases h
      · cases h
      · rw [h _ hs hl]
    | verify _ _ hI _ => have := hj.1; rw [hI.1] at this; exact absurd this (by decide)
    | change _ _ hI _ _ => have := hj.1; rw [hI] at this; exact absurd this (by decide)
    | sn _ _ hI _ _ => have := hj.1; rw [hI] at this; exact absurd this (by decide)
    | factory _ _ hI _ => have := hj.1; rw [hI] at this; exact absurd this (by decide)
    | other _ _ hI _ _ => exact absurd hj.1 hI.2.2.2.2
  rcases h with ⟨f', r1, he, h⟩ | ⟨f', r1, a, he, h⟩ <;> rw [he]
  · have := key _ _ _ h; cases this
  · have := key _ _ _ h; cases this; rfl

/-- C28: once WRITE SN was answered with 9000, the serial number is its four data bytes for ever: after any
history of commands to any applets (factory reset included), applet switches, boots and power cuts at any
storage operation, READ SN answers with these bytes. Storage errors without loss of power are excluded (see
`C28_read_error_allows_overwrite`). -/
theorem C28_serial_is_final (x : Ext σ τ) (hx : x.neq ≠ 0 ∧ x.neq ≠ 1) (s : St σ τ) (i j : In) (env env' : Env)
    (h : List (Op σ τ × Env)) (log : List (St σ τ × Op σ τ × Out)) (hi : i.c.ins = 0x30)
    (hok : (step x s (.apdu i) env).2 = .reply (.sw 0x9000)) (hc : ∀ e ∈ h, e.2.all cutsOnly)
    (hn : env'.all noFault) (hj : j.c.ins = 0x32 ∧ j.c.p1 = 0 ∧ j.c.p2 = 0 ∧ 4 ≤ j.c.le)
    (hon : (run x (step x s (.apdu i) env).1 log h).1.ram ≠ none) :
    i.c.data.length = 4 ∧ (run x (step x s (.apdu i) env).1 log h).1.flash.sn = some i.c.data ∧
    (step x (run x (step x s (.apdu i) env).1 log h).1 (.apdu j) env').2 = .reply (.resp i.c.data 0x9000) := by
  have h0 := written_sn hx hi hok
  have h1 := sn_run hx (h := h) (log := log) h0.2 hc
  refine ⟨h0.1, h1, ?_⟩
  generalize (run x (step x s (.apdu i) env).1 log h).1 = t at *
  obtain ⟨f, ro⟩ := t
  cases ro with
  | none => exact absurd rfl hon
  | some r => exact read_sn hx h1 h0.1 hj hn

/-! ### C29 -/

theorem process_factory {i : In} (hi : i.c.ins = 0x50) : process x i = factoryReset x i := by
  unfold process
  simp only [hi]
  rfl

theorem five_iff (p : Nat → List Bool) : strongPresence p = true ↔ FiveTouches p := by
  simp [strongPresence, FiveTouches]

/-- C29: in a state whose PIN file is intact, FACTORY RESET changes nothing and is not answered with 9000
unless P1 is 0, the data are "RESET", the admin PIN is blocked, the command came over USB and the user touched
the device in each of five rounds. Holds with power cuts at any storage operation; storage errors are excluded
(see `C29_read_error_skips_blocked_check`). -/
theorem C29_only_if (x : Ext σ τ) (f : Flash σ) (r : Ram τ) (i : In) (env : Env) (hi : i.c.ins = 0x50)
    (hf : ∃ p n, f.pin = some p ∧ p.ctr = some n) (he : env.all cutsOnly)
    (hc : ¬ (i.c.p1 = 0 ∧ i.c.data = [0x52, 0x45, 0x53, 0x45, 0x54] ∧ Blocked f ∧ i.nfc = false ∧ FiveTouches i.polls)) :
    (step x ⟨f, some r⟩ (.apdu i) env).1.flash = f ∧
    ((step x ⟨f, some r⟩ (.apdu i) env).2 = .cut ∨
      (step x ⟨f, some r⟩ (.apdu i) env).1.ram = some r ∧
      ∃ sw, (step x ⟨f, some r⟩ (.apdu i) env).2 = .reply (.sw sw) ∧ sw ≠ 0x9000) := by
  have h := exec_of_wp (factory_eff (A := cutsOnly) (x := x) (i := i) (f := f) (r := r)) he
  have e : step x ⟨f, some r⟩ (.apdu i) env = exec (process x i) f r env := rfl
  rw [e, process_factory hi]
  have no : ∀ o f' r', FacEff cutsOnly x i f r o f' r' → f' = f ∧ r' = r ∧
      (o = .cut ∨ ∃ sw, o = .done (.sw sw) ∧ sw ≠ 0x9000) := by
    intro o f' r' h
    cases h with
    | refuse sw h _ => exact ⟨rfl, rfl, .inr ⟨sw, rfl, h⟩⟩
    | cut => exact ⟨rfl, rfl, .inl rfl⟩
    | run hp hd hb hn ht _ _ _ h =>
      exfalso
      refine hc ⟨hp, hd, ?_, hn, (five_iff _).1 ht⟩
      obtain ⟨p, k, hp, hk⟩ := hf
      obtain ⟨n, hb, hz⟩ := hb
      cases hb with
      | empty q hq hd => exact ⟨q, hq, .inr hd⟩
      | io h =>
        rcases h with h | h
        · exact absurd rfl h
        · rw [h p hp] at hk; cases hk
      | some q c hq hc' _ =>
        refine ⟨q, hq, .inl ?_⟩
        have hz : c.toNat = 0 := hz
        rw [hc', show c = 0 from UInt8.toNat_inj.1 hz]
  rcases h with ⟨f', r1, he, h⟩ | ⟨f', r1, a, he, h⟩ <;> rw [he] <;> obtain ⟨hf1, hr1, h2⟩ := no _ _ _ h <;> subst hf1 <;> subst hr1
  · exact ⟨rfl, .inl rfl⟩
  · refine ⟨rfl, .inr ⟨rfl, ?_⟩⟩
    rcases h2 with h2 | ⟨sw, h2, hs⟩
    · cases h2
    · cases h2; exact ⟨sw, rfl, hs⟩

theorem factory_did {A : Fault → Prop} (x : Ext σ τ) (f : Flash σ) (r : Ram τ) (i : In) (env : Env) (hi : i.c.ins = 0x50) (he : env.all A)
    (hok : (step x ⟨f, some r⟩ (.apdu i) env).2 = .reply (.sw 0x9000)) :
    ∃ f' r', (step x ⟨f, some r⟩ (.apdu i) env).1 = ⟨f', some r'⟩ ∧
      f'.sn = f.sn ∧ f'.pin = some ⟨[0x31, 0x32, 0x33, 0x34, 0x35, 0x36], some 3, some 3⟩ ∧ r'.pin = ⟨false⟩ ∧
      f'.cfg = some ⟨true, true, true⟩ ∧ r'.cfg = ⟨true, true, true⟩ ∧
      f'.ndef = ⟨some Ndef.defaultCc, some (Ndef.resize Ndef.initMsg 1024)⟩ ∧ r'.ndef = ⟨Ndef.defaultCc, .none⟩ ∧
      ∃ o1 t1 o2 t2 o3 t3 o4 t4, Did A (x.pgp true) f.others r.others o1 t1 ∧ Did A (x.piv true) o1 t1 o2 t2 ∧
        Did A (x.oath true) o2 t2 o3 t3 ∧ Did A (x.ctap true) o3 t3 o4 t4 ∧
        Did A (x.pass true) o4 t4 f'.others r'.others := by
  have h := exec_of_wp (factory_eff (A := A) (x := x) (i := i) (f := f) (r := r)) he
  have e : step x ⟨f, some r⟩ (.apdu i) env = exec (process x i) f r env := rfl
  rw [e, process_factory hi] at hok ⊢
  rcases h with ⟨f', r1, e1, h⟩ | ⟨f', r1, a, e1, h⟩ <;> rw [e1] at hok ⊢ <;> cases hok
  cases h with
  | refuse sw h _ => exact absurd rfl h
  | run _ _ _ _ _ _ _ _ h =>
    cases h with
    | part _ _ _ ho => rcases ho with ho | ho <;> cases ho
    | done _ _ hs hp hc hn hrp hrc hrn ho => exact ⟨_, _, rfl, hs, hp, hrp, hc, hrc, hn, hrn, ho⟩

/-- C29: a FACTORY RESET answered with 9000, under any faults, has reset all applets: the admin PIN is "123456"
with three tries and not verified, the configuration and the NDEF applet are back to their defaults, and the
resets of OpenPGP, PIV, OATH, CTAP and Pass were all carried out; the serial number stays. -/
theorem C29_resets_everything (x : Ext σ τ) (f : Flash σ) (r : Ram τ) (i : In) (env : Env) (hi : i.c.ins = 0x50)
    (hok : (step x ⟨f, some r⟩ (.apdu i) env).2 = .reply (.sw 0x9000)) :
    ∃ f' r', (step x ⟨f, some r⟩ (.apdu i) env).1 = ⟨f', some r'⟩ ∧
      f'.sn = f.sn ∧ f'.pin = some ⟨[0x31, 0x32, 0x33, 0x34, 0x35, 0x36], some 3, some 3⟩ ∧ r'.pin = ⟨false⟩ ∧
      f'.cfg = some ⟨true, true, true⟩ ∧ r'.cfg = ⟨true, true, true⟩ ∧
      f'.ndef = ⟨some Ndef.defaultCc, some (Ndef.resize Ndef.initMsg 1024)⟩ ∧ r'.ndef = ⟨Ndef.defaultCc, .none⟩ ∧
      ∃ o1 t1 o2 t2 o3 t3 o4 t4, Did anyFault (x.pgp true) f.others r.others o1 t1 ∧ Did anyFault (x.piv true) o1 t1 o2 t2 ∧
        Did anyFault (x.oath true) o2 t2 o3 t3 ∧ Did anyFault (x.ctap true) o3 t3 o4 t4 ∧
        Did anyFault (x.pass true) o4 t4 f'.others r'.others :=
  factory_did x f r i env hi (anyAll env) hok

/-- C29: when the conditions hold, the resets of the other applets work and there are no faults, FACTORY RESET
is answered with 9000. -/
theorem C29_if (x : Ext σ τ) (f : Flash σ) (r : Ram τ) (i : In) (env : Env) (hi : i.c.ins = 0x50)
    (hw : ResetsWork noFault x) (he : env.all noFault)
    (hc : i.c.p1 = 0 ∧ i.c.data = [0x52, 0x45, 0x53, 0x45, 0x54] ∧ Blocked f ∧ i.nfc = false ∧ FiveTouches i.polls) :
    (step x ⟨f, some r⟩ (.apdu i) env).2 = .reply (.sw 0x9000) := by
  have h := exec_of_wp (factory_eff (A := noFault) (x := x) (i := i) (f := f) (r := r)) he
  have e : step x ⟨f, some r⟩ (.apdu i) env = exec (process x i) f r env := rfl
  rw [e, process_factory hi]
  have yes : ∀ o f' r', FacEff noFault x i f r o f' r' → o = .done (.sw 0x9000) := by
    intro o f' r' h
    cases h with
    | refuse sw h hw =>
      exfalso
      rcases hw with h | h | h | h | h
      · exact h hc.1
      · exact h hc.2.1
      · rw [hc.2.2.2.1] at h; cases h
      · rw [(five_iff _).2 hc.2.2.2.2] at h; cases h
      · obtain ⟨n, hb, hz⟩ := h
        obtain ⟨p, hp, hb'⟩ := hc.2.2.1
        cases hb with
        | empty => exact hz rfl
        | io => exact hz rfl
        | some q c hq hc' hd =>
          rw [hp] at hq; cases hq
          rcases hb' with hb' | hb'
          · rw [hb'] at hc'; cases hc'; exact hz rfl
          · rcases hd with hd | hd
            · exact hd hb'
            · cases hd
    | cut h => cases h
    | run _ _ _ _ _ _ _ _ h =>
      cases h with
      | part _ _ _ _ _ _ h =>
        rcases h with h | h | h
        · cases h
        · cases h
        · exact absurd hw h
      | done => rfl
  rcases h with ⟨f', r1, he, h⟩ | ⟨f', r1, a, he, h⟩ <;> rw [he]
  · have := yes _ _ _ h; cases this
  · have := yes _ _ _ h; cases this; rfl

/-- C28, what loss of power during WRITE SN may do: once the serial number file exists but is empty, it stays
so, and READ SN answers zeros for ever. -/
theorem C28_blank_serial_is_final (x : Ext σ τ) (hx : x.neq ≠ 0 ∧ x.neq ≠ 1) (s : St σ τ) (hs : s.flash.sn = some [])
    (h : List (Op σ τ × Env)) (log : List (St σ τ × Op σ τ × Out)) (hc : ∀ e ∈ h, e.2.all cutsOnly) :
    (run x s log h).1.flash.sn = some [] := sn_run hx hs hc

end

/-! ### A concrete device -/

/-- An applet that does nothing. -/
def idle {α : Type} (a : α) : Sub Unit Unit α := ⟨fun w => (some a, w), fun _ => ⟨0, rfl⟩⟩

def exX : Ext Unit Unit :=
  ⟨-1, fun _ => idle true, fun _ => idle true, fun _ => idle true, fun _ => idle true, fun _ => idle true,
    fun _ => idle (.sw 0x9000)⟩

/-- A new device. -/
def exF : Flash Unit := ⟨some ⟨defaultPin, some 3, some 3⟩, none, some defaultCfg, ⟨none, none⟩, ()⟩
def exR : Ram Unit := Ram.init ()
def exS : St Unit Unit := ⟨exF, some exR⟩
def exI (ins p1 : Byte) (data : Bytes) (le : Nat) : In :=
  ⟨⟨0, ins, p1, 0, data, le⟩, false, fun _ => [false, true], [], 0, 0⟩
def exVerify : In := exI 0x20 0 defaultPin 0
def exConfig : In := exI 0x40 1 [] 0
def exWrite : In := exI 0x30 0 [1, 2, 3, 4] 0
def exRead : In := exI 0x32 0 [] 4
def exReset : In := exI 0x50 0 magic 0
def exBad : In := exI 0x20 0 [0, 0, 0, 0, 0, 0] 0
/-- `n` successful operations, then one with result `a`. -/
def failAt (n : Nat) (a : Fault) : Env := fun k => if k = n then a else .ok

theorem good_all : Env.good.all noFault := fun _ => rfl
theorem good_cuts : Env.good.all cutsOnly := fun _ => by (intro h; cases h)

/-- Non-vacuity of `C27_gate`: CONFIG is refused after a wrong PIN. -/
example : step exX (run exX exS [] [(.apdu exBad, Env.good)]).1 (.apdu exConfig) Env.good =
    ((run exX exS [] [(.apdu exBad, Env.good)]).1, .reply (.sw 0x6982)) := by
  apply C27_gate exX (by decide) exS (fun r h => by cases h; rfl) _ _ _ (by decide)
  · rintro ⟨⟩
  · rintro ⟨_, p, n, h1, _, _, _, _, h⟩
    cases h1; revert h; decide

example : (step exX exS (.apdu exVerify) Env.good).2 = .reply (.sw 0x9000) ∧
    (step exX (step exX exS (.apdu exVerify) Env.good).1 (.apdu exConfig) Env.good).2 = .reply (.sw 0x9000) :=
  C27_verified_may_configure exX (by decide) exF exR exVerify exConfig Env.good Env.good good_all good_all
    (by decide) ⟨_, 3, rfl, rfl, by decide, by decide, by decide, rfl⟩ ⟨_, 3, rfl, rfl⟩ rfl (.inl rfl)

/-- A device with a verified PIN. -/
def exV : St Unit Unit := (step exX exS (.apdu exVerify) Env.good).1

/-- Non-vacuity of `C28_serial_is_final`: the number survives a cut second WRITE SN and a boot. -/
example : (step exX (run exX (step exX exV (.apdu exWrite) Env.good).1 []
      [(.apdu (exI 0x30 0 [9, 9, 9, 9] 0), failAt 0 .cut), (.boot (), Env.good)]).1 (.apdu exRead) Env.good).2 =
    .reply (.resp [1, 2, 3, 4] 0x9000) :=
  (C28_serial_is_final exX (by decide) exV exWrite exRead Env.good Env.good _ [] rfl rfl
    (by
      intro e he
      rcases List.mem_cons.1 he with rfl | he
      · intro n; show failAt 0 .cut n ≠ .fail; unfold failAt; split <;> decide
      · rcases List.mem_cons.1 he with rfl | he
        · exact good_cuts
        · cases he) good_all (by decide) (by rintro ⟨⟩)).2.2

/-- C28 fails when the file system cannot read the size of the serial number file: `get_file_size` is then
negative, and the number is overwritten. -/
theorem C28_read_error_allows_overwrite : ∃ (s : St Unit Unit) (i : In) (env : Env),
    s.flash.sn = some [1, 2, 3, 4] ∧ (step exX s (.apdu i) env).2 = .reply (.sw 0x9000) ∧
    (step exX s (.apdu i) env).1.flash.sn = some [9, 9, 9, 9] :=
  ⟨(step exX exV (.apdu exWrite) Env.good).1, exI 0x30 0 [9, 9, 9, 9] 0, failAt 0 .fail, rfl, rfl, rfl⟩

/-- C28: loss of power between the two commits of WRITE SN leaves an empty file, so that the device will never
have a serial number (`C28_blank_serial_is_final`). -/
theorem C28_cut_leaves_blank_serial : ∃ (s : St Unit Unit) (i : In) (env : Env),
    s.flash.sn = none ∧ (step exX s (.apdu i) env).2 = .cut ∧ (step exX s (.apdu i) env).1.flash.sn = some [] :=
  ⟨exV, exWrite, failAt 2 .cut, rfl, rfl, rfl⟩

/-- A device whose admin PIN is blocked. -/
def exB : St Unit Unit := ⟨{ exF with pin := some ⟨defaultPin, some 0, some 3⟩, sn := some [1, 2, 3, 4] }, some exR⟩

/-- Non-vacuity of `C29_only_if`: the PIN is not blocked. -/
example : (step exX exS (.apdu exReset) Env.good).1.flash = exF :=
  (C29_only_if exX exF exR exReset Env.good rfl ⟨_, 3, rfl, rfl⟩ good_cuts (by
    rintro ⟨_, _, ⟨p, h, hb⟩, _⟩
    cases h
    rcases hb with hb | hb <;> revert hb <;> decide)).1

/-- Non-vacuity of `C29_if`. -/
theorem exB_resets : (step exX exB (.apdu exReset) Env.good).2 = .reply (.sw 0x9000) :=
  C29_if exX exB.flash exR exReset Env.good rfl (by
    intro m hm w _
    simp only [exX, List.mem_cons, List.not_mem_nil, or_false, or_self] at hm
    subst hm; rfl) good_all ⟨rfl, rfl, ⟨_, rfl, .inl rfl⟩, rfl, fun _ _ => .tail _ (.head _)⟩

/-- Non-vacuity of `C29_resets_everything`. -/
example : ∃ f' r', (step exX exB (.apdu exReset) Env.good).1 = ⟨f', some r'⟩ ∧ f'.sn = some [1, 2, 3, 4] := by
  obtain ⟨f', r', h1, h2, _⟩ := C29_resets_everything exX exB.flash exR exReset Env.good rfl exB_resets
  exact ⟨f', r', h1, h2⟩

/-- C29 fails when the retry counter cannot be read: `pin_get_retries` is then negative, which passes the
comparison with 0, and the device is reset although its PIN has all its tries. -/
theorem C29_read_error_skips_blocked_check : ∃ (f : Flash Unit) (i : In) (env : Env),
    ¬ Blocked f ∧ (step exX ⟨f, some exR⟩ (.apdu i) env).2 = .reply (.sw 0x9000) := by
  refine ⟨exF, exReset, failAt 1 .fail, ?_, rfl⟩
  rintro ⟨p, h, hb⟩
  cases h
  rcases hb with hb | hb <;> revert hb <;> decide

/-- C27, C02: VERIFY passes the length of the data as a `uint8_t`, so any 262 bytes that begin with the PIN
verify it. -/
theorem C27_long_candidate_accepted (d : Bytes) (hl : d.length = 262) (hd : d.take 6 = defaultPin) :
    (step exX exS (.apdu (exI 0x20 0 d 0)) Env.good).2 = .reply (.sw 0x9000) :=
  (C27_verified_may_configure exX (by decide) exF exR (exI 0x20 0 d 0) exConfig
    Env.good Env.good good_all good_all ⟨rfl, rfl, rfl, fun h => by
      have h : d = [] := h
      rw [h] at hl; cases hl⟩
    ⟨⟨defaultPin, some 3, some 3⟩, 3, rfl, rfl, by decide, by show 6 ≤ d.length % 256; rw [hl]; decide,
      by show d.length % 256 ≤ 64; rw [hl]; decide,
      by show d.take (d.length % 256) = _; rw [hl]; exact hd⟩ ⟨_, 3, rfl, rfl⟩ rfl (.inl rfl)).1

example : (defaultPin ++ List.replicate 256 0).length = 262 ∧
    (defaultPin ++ List.replicate 256 0).take 6 = defaultPin := by
  constructor
  · rw [List.length_append, List.length_replicate]; rfl
  · exact List.take_left (l₁ := defaultPin)

end Verif.Admin
