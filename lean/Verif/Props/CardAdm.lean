import Verif.Lemmas.CardSince
import Verif.Spec.CardUse
import Verif.Props.Admin
/-
The admin applet on the whole card.
-/
namespace Verif.Card
open Spec.Card
open Apdu (Capdu Rapdu Applet)

variable {x : Ext}

/-! ### What an operation of the card does to the files and variables of the admin applet -/

/-- The state as the admin applet sees it. -/
def admSt (s : St) : Admin.St Fl Rm := ⟨s.flash, s.ram.map Prod.fst⟩

/-- The files of the admin applet are as before. -/
structure AdmKept (f f' : Flash) : Prop where
  pin : f'.pin = f.pin
  sn : f'.sn = f.sn
  cfg : f'.cfg = f.cfg

theorem zoom_oth {α : Type} (m : FsM Fl Rm α) (w : World Flash Ram) :
    AdmKept w.flash (FsM.zoom Admin.othF Admin.othR m w).2.flash ∧
    (FsM.zoom Admin.othF Admin.othR m w).2.ram.pin = w.ram.pin ∧
    (FsM.zoom Admin.othF Admin.othR m w).2.flash.ndef = w.flash.ndef := ⟨⟨rfl, rfl, rfl⟩, rfl, rfl⟩

theorem zoom_ndef {α : Type} (m : FsM Ndef.Flash Ndef.Ram α) (w : World Flash Ram) :
    AdmKept w.flash (FsM.zoom Admin.ndefF Admin.ndefR m w).2.flash ∧
    (FsM.zoom Admin.ndefF Admin.ndefR m w).2.ram.pin = w.ram.pin := ⟨⟨rfl, rfl, rfl⟩, rfl⟩

theorem answers_exec {σ τ : Type} (m : Admin.M σ τ Reply) (f : Admin.Flash σ) (r : Admin.Ram τ) (env : Env) :
    Admin.exec m f r env = match answers m ⟨f, r, env⟩ with
      | (none, w) => (⟨w.flash, none⟩, .cut)
      | (some a, w) => (⟨w.flash, some w.ram⟩, .reply a) := by
  unfold Admin.exec runCmd answers
  generalize m.run ⟨f, r, env⟩ = res
  obtain ⟨o, w⟩ := res
  rcases o with _ | (_ | _) <;> rfl

/-- An operation that is neither a restart nor a command to the admin applet. -/
structure AdmIdle (s : St) (op : Op) (s' : St) (o : Out) : Prop where
  boot : ∀ r, op ≠ .boot r
  call : ∀ k, o.call = some k → k.to ≠ .admin
  kept : AdmKept s.flash s'.flash
  ram : ∀ r' d', s'.ram = some (r', d') → ∃ r d, s.ram = some (r, d) ∧
    (r'.pin = ⟨false⟩ ∨ op ≠ .power ∧ (∀ k, o.call = some k → k.switch = false) ∧ r'.pin = r.pin)

/-- A command to the admin applet. -/
structure AdmCall (x : Ext) (s : St) (op : Op) (env : Env) (s' : St) (o : Out) (i : In) (k : Call) (r1 : Ram) : Prop where
  op : ∃ c, op = .apdu c i
  call : o.call = some k
  to : k.to = .admin
  ram : ∃ r d, s.ram = some (r, d) ∧ r1.pin = (if k.switch then ⟨false⟩ else r.pin)
  step : Admin.step (admExt x) ⟨s.flash, some r1⟩ (.apdu { i.adm with c := k.cmd }) env =
    (admSt s', answer .reply .cut k.ans)
  rnd : r1.others.rnd = i.rnd

theorem oth_idle {α : Type} (m : FsM Fl Rm α) (f : Flash) (r : Ram) (d : Disp) (env : Env) (op : Op) (o : Out)
    (hb : ∀ r, op ≠ .boot r) (hp : op ≠ .power) (ho : o.call = none) (ram : Option (Ram × Disp))
    (hr : ram = none ∨ ram = some ((FsM.zoom Admin.othF Admin.othR m ⟨f, r, env⟩).2.ram, d)) :
    AdmIdle ⟨f, some (r, d)⟩ op ⟨(FsM.zoom Admin.othF Admin.othR m ⟨f, r, env⟩).2.flash, ram⟩ o where
  boot := hb
  call k h := by rw [ho] at h; cases h
  kept := ⟨rfl, rfl, rfl⟩
  ram r' d' h := by
    refine ⟨r, d, rfl, .inr ⟨hp, fun k h => (by rw [ho] at h; cases h), ?_⟩⟩
    have h : ram = some (r', d') := h
    rcases hr with hr | hr
    · rw [hr] at h; cases h
    · rw [hr] at h; cases h; rfl

/-- What an operation of the card is for the admin applet. -/
theorem adm_step (s : St) (op : Op) (env : Env) :
    (∃ r, op = .boot r ∧
      admSt (step x s op env).1 = (Admin.step (admExt x) (admSt s) (.boot (Rm.init r)) env).1 ∧
      ∀ r' d', (step x s op env).1.ram = some (r', d') → d'.current = none) ∨
    (∃ i k r1, AdmCall x s op env (step x s op env).1 (step x s op env).2 i k r1) ∨
    AdmIdle s op (step x s op env).1 (step x s op env).2 := by
  obtain ⟨f, ro⟩ := s
  have off : ∀ op, (∀ r, op ≠ .boot r) → step x ⟨f, none⟩ op env = (⟨f, none⟩, ⟨.none, none⟩) →
      AdmIdle ⟨f, none⟩ op (step x ⟨f, none⟩ op env).1 (step x ⟨f, none⟩ op env).2 := by
    intro op hb e
    rw [e]
    exact ⟨hb, fun k h => (by cases h), ⟨rfl, rfl, rfl⟩, fun _ _ h => (by cases h)⟩
  cases op with
  | boot r =>
    refine .inl ⟨r, rfl, ?_, ?_⟩
    · cases ro <;>
      (unfold Admin.step admSt
       unfold step
       dsimp only
       generalize Admin.boot _ _ = res
       obtain ⟨o, w⟩ := res
       cases o <;> rfl)
    · intro r' d' h
      unfold step at h
      dsimp only at h
      split at h
      · cases h
      · cases h; rfl
  | power =>
    refine .inr (.inr ?_)
    cases ro with
    | none => exact off _ (fun _ h => (by cases h)) rfl
    | some rd =>
      refine ⟨fun _ h => (by cases h), fun k h => (by cases h), ⟨rfl, rfl, rfl⟩, fun r' d' h => ?_⟩
      cases h
      exact ⟨_, _, rfl, .inl rfl⟩
  | touch long =>
    refine .inr (.inr ?_)
    cases ro with
    | none => exact off _ (fun _ h => (by cases h)) rfl
    | some rd =>
      obtain ⟨r, d⟩ := rd
      unfold step
      dsimp only
      have := oth_idle (FsM.zoom oathF oathR (Oath.handleTouch x.oath long).run) f r d env (.touch long)
      generalize FsM.zoom Admin.othF Admin.othR (FsM.zoom oathF oathR _) _ = res at this ⊢
      obtain ⟨o, w⟩ := res
      rcases o with _ | (_ | _)
      · exact this _ (fun _ h => (by cases h)) (fun h => (by cases h)) rfl _ (.inl rfl)
      · exact this _ (fun _ h => (by cases h)) (fun h => (by cases h)) rfl _ (.inr rfl)
      · exact this _ (fun _ h => (by cases h)) (fun h => (by cases h)) rfl _ (.inr rfl)
  | cbor q i =>
    refine .inr (.inr ?_)
    cases ro with
    | none => exact off _ (fun _ h => (by cases h)) rfl
    | some rd =>
      obtain ⟨r, d⟩ := rd
      have e : step x ⟨f, some (r, d)⟩ (.cbor q i) env =
        execCtap (shows (Ctap.process x.ctap i q) .resp) f r d env := rfl
      rw [e]
      unfold execCtap
      have := oth_idle (FsM.zoom ctapF ctapR (shows (Ctap.process x.ctap i q) .resp)) f r d env (.cbor q i)
      generalize FsM.zoom Admin.othF Admin.othR (FsM.zoom ctapF ctapR _) _ = res at this ⊢
      obtain ⟨o, w⟩ := res
      cases o with
      | none => exact this _ (fun _ h => (by cases h)) (fun h => (by cases h)) rfl _ (.inl rfl)
      | some o => exact this _ (fun _ h => (by cases h)) (fun h => (by cases h)) rfl _ (.inr rfl)
  | u2f q i =>
    refine .inr (.inr ?_)
    cases ro with
    | none => exact off _ (fun _ h => (by cases h)) rfl
    | some rd =>
      obtain ⟨r, d⟩ := rd
      have e : step x ⟨f, some (r, d)⟩ (.u2f q i) env =
        execCtap (shows (Ctap.u2f x.ctap i q) .u2f) f r d env := rfl
      rw [e]
      unfold execCtap
      have := oth_idle (FsM.zoom ctapF ctapR (shows (Ctap.u2f x.ctap i q) .u2f)) f r d env (.u2f q i)
      generalize FsM.zoom Admin.othF Admin.othR (FsM.zoom ctapF ctapR _) _ = res at this ⊢
      obtain ⟨o, w⟩ := res
      cases o with
      | none => exact this _ (fun _ h => (by cases h)) (fun h => (by cases h)) rfl _ (.inl rfl)
      | some o => exact this _ (fun _ h => (by cases h)) (fun h => (by cases h)) rfl _ (.inr rfl)
  | apdu c i =>
    cases ro with
    | none => exact .inr (.inr (off _ (fun _ h => (by cases h)) rfl))
    | some rd =>
      obtain ⟨r, d⟩ := rd
      have e : step x ⟨f, some (r, d)⟩ (.apdu c i) env = match route r.cfg.ndef d c with
        | .error _ => (⟨f, some (r, d)⟩, ⟨.ub, none⟩)
        | .ok rt => handle x f r i rt env := rfl
      rw [e]
      cases route r.cfg.ndef d c with
      | error u =>
        refine .inr (.inr ⟨fun _ h => (by cases h), fun k h => (by cases h), ⟨rfl, rfl, rfl⟩, fun r' d' h => ?_⟩)
        cases h
        exact ⟨_, _, rfl, .inr ⟨fun h => (by cases h), fun k h => (by cases h), rfl⟩⟩
      | ok rt =>
        dsimp only
        cases rt with
        | «local» d1 a1 =>
          refine .inr (.inr ⟨fun _ h => (by cases h), fun k h => (by cases h), ⟨rfl, rfl, rfl⟩, fun r' d' h => ?_⟩)
          cases h
          exact ⟨_, _, rfl, .inr ⟨fun h => (by cases h), fun k h => (by cases h), rfl⟩⟩
        | call d1 sw a1 c1 ch =>
          unfold handle
          dsimp only
          generalize hr1 : ({ (if sw then powerOff r else r) with others :=
            { (if sw then powerOff r else r).others with rnd := i.rnd } } : Ram) = r1
          have hpin : r1.pin = (if sw then ⟨false⟩ else r.pin) := by
            rw [← hr1]; cases sw <;> rfl
          have hrnd : r1.others.rnd = i.rnd := by rw [← hr1]
          by_cases ha : a1 = .admin
          · subst ha
            refine .inr (.inl ?_)
            have e1 := answers_exec (Admin.process (admExt x) { i.adm with c := c1 }) f r1 env
            have e2 : Admin.step (admExt x) ⟨f, some r1⟩ (.apdu { i.adm with c := c1 }) env =
              Admin.exec (Admin.process (admExt x) { i.adm with c := c1 }) f r1 env := rfl
            have e3 : deliver x i .admin c1 = answers (Admin.process (admExt x) { i.adm with c := c1 }) := rfl
            rw [e3]
            rw [e1] at e2
            generalize answers (Admin.process (admExt x) { i.adm with c := c1 }) ⟨f, r1, env⟩ = res at e2 ⊢
            obtain ⟨o, w⟩ := res
            rcases o with _ | rep
            · exact ⟨i, _, r1, ⟨c, rfl⟩, rfl, rfl, ⟨r, d, rfl, hpin⟩, e2, hrnd⟩
            · cases rep with
              | ub u => exact ⟨i, _, r1, ⟨c, rfl⟩, rfl, rfl, ⟨r, d, rfl, hpin⟩, e2, hrnd⟩
              | resp data sw' =>
                dsimp only
                cases finish d1 c1 ch ⟨data, UInt16.ofNat sw'⟩ with
                | error e => exact ⟨i, _, r1, ⟨c, rfl⟩, rfl, rfl, ⟨r, d, rfl, hpin⟩, e2, hrnd⟩
                | ok p => exact ⟨i, _, r1, ⟨c, rfl⟩, rfl, rfl, ⟨r, d, rfl, hpin⟩, e2, hrnd⟩
          · refine .inr (.inr ?_)
            have hz : AdmKept f (deliver x i a1 c1 ⟨f, r1, env⟩).2.flash ∧
                (deliver x i a1 c1 ⟨f, r1, env⟩).2.ram.pin = r1.pin := by
              cases a1 with
              | admin => exact absurd rfl ha
              | openpgp | piv | oath | fido => exact ⟨⟨rfl, rfl, rfl⟩, rfl⟩
              | ndef => exact ⟨⟨rfl, rfl, rfl⟩, rfl⟩
            generalize deliver x i a1 c1 ⟨f, r1, env⟩ = res at hz ⊢
            obtain ⟨o, w⟩ := res
            have fin : ∀ {ram : Option (Ram × Disp)} {host : Host} {ans : Option Reply},
                (ram = none ∨ ∃ d2, ram = some (w.ram, d2)) →
                AdmIdle ⟨f, some (r, d)⟩ (.apdu c i) ⟨w.flash, ram⟩ ⟨host, some ⟨sw, a1, c1, ans⟩⟩ := by
              intro ram host ans hr
              refine ⟨fun _ h => (by cases h), fun k h => (by cases h; exact ha), hz.1, fun r' d' h => ?_⟩
              have h : ram = some (r', d') := h
              rcases hr with hr | ⟨d2, hr⟩
              · rw [hr] at h; cases h
              · rw [hr] at h
                cases h
                refine ⟨r, d, rfl, ?_⟩
                cases sw with
                | true => exact .inl (hz.2.trans hpin)
                | false => exact .inr ⟨fun h => (by cases h), fun k h => (by cases h; rfl), hz.2.trans hpin⟩
            rcases o with _ | rep
            · exact fin (.inl rfl)
            · cases rep with
              | ub u => exact fin (.inr ⟨_, rfl⟩)
              | resp data sw' =>
                dsimp only
                cases finish d1 c1 ch ⟨data, UInt16.ofNat sw'⟩ with
                | error e => exact fin (.inr ⟨_, rfl⟩)
                | ok p => exact fin (.inr ⟨_, rfl⟩)

/-! ### The gate -/

/-- What surely ends the authorisation in the RAM of the admin applet. -/
def Weak (e : St × Op × Out) : Prop :=
  (e.1.ram ≠ none ∧ (e.2.1 = .power ∨ ∃ k, e.2.2.call = some k ∧ k.switch = true)) ∨
  ∃ i o, AdmSaw e i o ∧
    (Spec.Admin.IsVerify i.c ∨
     i.c.ins = 0x21 ∧ o ≠ .reply (.sw 0x6A86) ∧ o ≠ .reply (.sw 0x6700) ∧ o ≠ .reply (.sw 0x6982) ∨
     i.c.ins = 0x50 ∧ o = .reply (.sw 0x9000))

def AInv (s : St) (log : List (St × Op × Out)) : Prop :=
  ∀ r d, s.ram = some (r, d) → r.pin.validated = true → Since AdminVerified Weak log

/-- A log with or without an authorisation. -/
theorem exists_log (f : Flash) (b : Bool) : ∃ l : List (Admin.St Fl Rm × Admin.Op Fl Rm × Admin.Out),
    (b = true → Spec.Admin.Authorised l) ∧ (b = false → ¬ Spec.Admin.Authorised l) := by
  cases b with
  | false => exact ⟨[], fun h => (by cases h), fun _ h => h⟩
  | true =>
    refine ⟨[(⟨{ f with pin := some ⟨[1, 2, 3, 4, 5, 6], some 3, some 3⟩ }, none⟩,
      .apdu (Admin.exI 0x20 0 [1, 2, 3, 4, 5, 6] 0), .none)], fun _ => ?_, fun h => by cases h⟩
    refine ⟨fun h => (by cases h), ?_⟩
    rw [if_pos (by decide)]
    exact ⟨_, 3, rfl, rfl, by decide, by decide, by decide, by decide⟩

theorem ainv_step (hx : x.neq ≠ 0 ∧ x.neq ≠ 1) {s : St} {log : List (St × Op × Out)}
    (h : AInv s log) (op : Op) (env : Env) : AInv (step x s op env).1 ((s, op, (step x s op env).2) :: log) := by
  intro r' d' hr' hv'
  rcases adm_step (x := x) s op env with ⟨rn, rfl, hb, _⟩ | ⟨i, k, r1, hc⟩ | hi
  · have : (Admin.step (admExt x) (admSt s) (.boot (Rm.init rn)) env).1.ram = some r' := by
      rw [← hb]; unfold admSt; rw [hr']; rfl
    rw [Admin.boot_step.2 r' this] at hv'
    cases hv'
  · obtain ⟨⟨c, rfl⟩, hk, hto, ⟨r, d, hr, hpin⟩, hst⟩ := hc
    obtain ⟨l, hl, hl'⟩ := exists_log s.flash r1.pin.validated
    have hinv := Admin.inv_step (x := admExt x) (s := ⟨s.flash, some r1⟩) (log := l)
      (op := .apdu { i.adm with c := k.cmd }) (env := env) hx (fun r0 h0 hv => by cases h0; exact hl hv)
    rw [hst] at hinv
    have ha := hinv r' (by unfold admSt; rw [hr']; rfl) hv'
    obtain ⟨hncut, ha⟩ := ha
    have saw : AdmSaw (s, .apdu c i, (step x s (.apdu c i) env).2) { i.adm with c := k.cmd }
        (answer .reply .cut k.ans) :=
      ⟨i, k, ⟨by rw [hr]; exact (by intro h; cases h), ⟨c, rfl⟩, hk, hto⟩, rfl, rfl⟩
    by_cases hver : Spec.Admin.IsVerify k.cmd
    · rw [if_pos hver] at ha
      exact .inl ⟨_, _, saw, hver, ha, hncut⟩
    · rw [if_neg hver] at ha
      have hal : Spec.Admin.Authorised l := by
        split at ha
        · exact ha.2
        · split at ha
          · exact ha.2
          · exact ha
      have hv1 : r1.pin.validated = true := by
        cases hv : r1.pin.validated with
        | true => rfl
        | false => exact absurd hal (hl' hv)
      have hsw : k.switch = false := by
        cases hs : k.switch with
        | false => rfl
        | true => rw [hs] at hpin; rw [hpin] at hv1; cases hv1
      rw [hsw] at hpin
      refine .inr ⟨h r d hr (by rw [← show r1.pin = r.pin from hpin]; exact hv1), ?_⟩
      rintro (⟨_, h | ⟨k', hk', hs'⟩⟩ | ⟨i', o', ⟨j', k', ⟨_, ⟨c', hop⟩, hk', _⟩, rfl, rfl⟩, h⟩)
      · cases h
      · rw [hk] at hk'; cases hk'; rw [hsw] at hs'; cases hs'
      · cases hop
        rw [hk] at hk'
        cases hk'
        rcases h with h | ⟨h1, h2⟩ | ⟨h1, h2⟩
        · exact hver h
        · rw [if_pos (show k.cmd.ins = 0x21 from h1)] at ha
          rcases ha.1 with h | h | h
          · exact h2.1 h
          · exact h2.2.1 h
          · exact h2.2.2 h
        · rw [if_neg (by rw [show k.cmd.ins = 0x50 from h1]; decide), if_pos (show k.cmd.ins = 0x50 from h1)] at ha
          exact ha.1 h2
  · obtain ⟨r, d, hr, h1⟩ := hi.ram r' d' hr'
    rcases h1 with h1 | ⟨hp, hs, h1⟩
    · rw [h1] at hv'; cases hv'
    · refine .inr ⟨h r d hr (by rw [← h1]; exact hv'), ?_⟩
      rintro (⟨_, h | ⟨k', hk', hs'⟩⟩ | ⟨i', o', ⟨j', k', ⟨_, _, hk', hto⟩, _⟩, _⟩)
      · exact hp h
      · rw [hs k' hk'] at hs'; cases hs'
      · exact hi.call k' hk' hto

theorem ainv_run (hx : x.neq ≠ 0 ∧ x.neq ≠ 1) (H : List (Op × Env)) :
    ∀ (s : St) (log : List (St × Op × Out)), AInv s log → AInv (run x s log H).1 (run x s log H).2 := by
  induction H with
  | nil => intro s log h; exact h
  | cons e H ih => intro s log h; exact ih _ _ (ainv_step hx h _ _)

/-- The call behind what the admin applet saw. -/
theorem saw_call {s : St} {op : Op} {env : Env} {i : Admin.In} {o : Admin.Out}
    (h : AdmSaw (s, op, (step x s op env).2) i o) : ∃ j k r1, AdmCall x s op env (step x s op env).1 (step x s op env).2 j k r1 ∧
      i = { j.adm with c := k.cmd } ∧ o = answer .reply .cut k.ans := by
  obtain ⟨j, k, ⟨hon, ⟨c, hop⟩, hk, hto⟩, rfl, rfl⟩ := h
  rcases adm_step (x := x) s op env with ⟨rn, hb, _⟩ | ⟨i, k', r1, hc⟩ | hi
  · cases hop.symm.trans hb
  · obtain ⟨c', hc'⟩ := hc.op
    cases hop.symm.trans hc'
    cases hk.symm.trans hc.call
    exact ⟨_, _, _, hc, rfl, rfl⟩
  · exact absurd hto (hi.call k hk)

/-- C94: after any history of the whole card from power-up, under any faults, a command that the dispatcher hands to the
admin applet, other than the open ones, is answered with 6982 and leaves the flash of the whole card as it was, unless
the right admin PIN was presented by a VERIFY that went to the admin applet, and since then the host has not left the
admin applet, presented or changed the PIN, or reset the device. -/
theorem C94_admin_gate (hx : x.neq ≠ 0 ∧ x.neq ≠ 1) (f : Flash) (H : List (Op × Env)) (op : Op)
    (env : Env) (i : Admin.In) (o : Admin.Out)
    (hs : AdmSaw ((run x ⟨f, none⟩ [] H).1, op, (step x (run x ⟨f, none⟩ [] H).1 op env).2) i o)
    (hi : i.c.ins ∉ Spec.Admin.openIns) (hn : ¬ Since AdminVerified AdminDropped (run x ⟨f, none⟩ [] H).2) :
    o = .reply (.sw 0x6982) ∧
    (step x (run x ⟨f, none⟩ [] H).1 op env).1.flash = (run x ⟨f, none⟩ [] H).1.flash := by
  have hinv := ainv_run hx H ⟨f, none⟩ [] (fun _ _ h => by cases h)
  obtain ⟨j, k, r1, hc, rfl, rfl⟩ := saw_call hs
  obtain ⟨⟨c, hop⟩, hk, hto, ⟨r, d, hr, hpin⟩, hst⟩ := hc
  cases hv : r1.pin.validated with
  | false =>
    have e : Admin.step (admExt x) ⟨(run x ⟨f, none⟩ [] H).1.flash, some r1⟩ (.apdu { j.adm with c := k.cmd }) env =
      Admin.exec (Admin.process (admExt x) { j.adm with c := k.cmd }) (run x ⟨f, none⟩ [] H).1.flash r1 env := rfl
    rw [e, Admin.process_locked hi hv] at hst
    have h1 := congrArg Prod.fst hst
    have h2 := congrArg Prod.snd hst
    exact ⟨h2.symm, (congrArg Admin.St.flash h1).symm⟩
  | true =>
    exfalso
    have hsw : k.switch = false := by
      cases hs : k.switch with
      | false => rfl
      | true => rw [hs] at hpin; rw [hpin] at hv; cases hv
    rw [hsw] at hpin
    have hw := hinv r d hr (by rw [← show r1.pin = r.pin from hpin]; exact hv)
    obtain ⟨r2, d2, h1, h2⟩ := (handed_current hk).2 hsw
    refine hn (since_mono (fun _ h => h) ?_ (since_stays (a := .admin) ?_ ?_ H ⟨f, none⟩ h1 (h2.trans (congrArg some hto)) hw))
    · rintro e (h | h)
      · exact .inl h
      · exact .inr (.inr h)
    · exact fun s o hn => .inl ⟨hn, .inl rfl⟩
    · exact fun s c i o k hn hk hs => .inl ⟨hn, .inr ⟨k, hk, hs⟩⟩

/-- C94: no command of another applet, and nothing done over CTAP HID, the keyboard or the reader, changes the admin PIN,
its retry counter, the serial number or the configuration; for this, a command must go to the admin applet. -/
theorem C94_only_admin (s : St) (op : Op) (env : Env) (hb : ∀ r, op ≠ .boot r)
    (hs : ∀ i o, ¬ AdmSaw (s, op, (step x s op env).2) i o) :
    (step x s op env).1.flash.pin = s.flash.pin ∧ (step x s op env).1.flash.sn = s.flash.sn ∧
    (step x s op env).1.flash.cfg = s.flash.cfg := by
  rcases adm_step (x := x) s op env with ⟨rn, h, _⟩ | ⟨i, k, r1, hc⟩ | hi
  · exact absurd h (hb rn)
  · exfalso
    obtain ⟨hop, hk, hto, ⟨r, d, hr, _⟩, _⟩ := hc
    exact hs _ _ ⟨i, k, ⟨by rw [hr]; exact (by intro h; cases h), hop, hk, hto⟩, rfl, rfl⟩
  · exact ⟨hi.kept.pin, hi.kept.sn, hi.kept.cfg⟩

theorem card_sn_step (hx : x.neq ≠ 0 ∧ x.neq ≠ 1) {s : St} {b : Bytes} (h : s.flash.sn = some b) (op : Op)
    {env : Env} (he : env.all cutsOnly) : (step x s op env).1.flash.sn = some b := by
  rcases adm_step (x := x) s op env with ⟨rn, rfl, hb, _⟩ | ⟨i, k, r1, hc⟩ | hi
  · have e : (admSt (step x s (.boot rn) env).1).flash.sn = some b := by
      rw [hb]; exact Admin.sn_step (x := admExt x) hx (s := admSt s) h he
    exact e
  · have := Admin.sn_step (x := admExt x) hx (s := ⟨s.flash, some r1⟩) h (op := .apdu { i.adm with c := k.cmd }) he
    rw [hc.step] at this
    exact this
  · exact hi.kept.sn.trans h

theorem card_sn_run (hx : x.neq ≠ 0 ∧ x.neq ≠ 1) {b : Bytes} (H : List (Op × Env))
    (hc : ∀ e ∈ H, e.2.all cutsOnly) :
    ∀ (s : St) (log : List (St × Op × Out)), s.flash.sn = some b → (run x s log H).1.flash.sn = some b := by
  induction H with
  | nil => intro s log h; exact h
  | cons e H ih =>
    intro s log h
    exact ih (fun e' h' => hc e' (.tail _ h')) _ _ (card_sn_step hx h _ (hc e (.head _)))

/-- C94: once the admin applet answered WRITE SN with 9000, the serial number is the four bytes of this command for ever,
whatever any host does with any applet of the card, with power cuts at any storage operation: it is in flash after any
history, and READ SN answers with it.  Storage errors without loss of power are excluded
(`C28_read_error_allows_overwrite`). -/
theorem C94_serial_is_final (hx : x.neq ≠ 0 ∧ x.neq ≠ 1) (s : St) (op : Op) (env : Env) (i : Admin.In)
    (hs : AdmSaw (s, op, (step x s op env).2) i (.reply (.sw 0x9000))) (hi : i.c.ins = 0x30)
    (H : List (Op × Env)) (hc : ∀ e ∈ H, e.2.all cutsOnly) :
    i.c.data.length = 4 ∧ (run x (step x s op env).1 [] H).1.flash.sn = some i.c.data ∧
    ∀ op' env' j o, env'.all noFault → AdmSaw ((run x (step x s op env).1 [] H).1, op',
        (step x (run x (step x s op env).1 [] H).1 op' env').2) j o →
      j.c.ins = 0x32 → j.c.p1 = 0 → j.c.p2 = 0 → 4 ≤ j.c.le → o = .reply (.resp i.c.data 0x9000) := by
  obtain ⟨j, k, r1, hc1, rfl, ho⟩ := saw_call hs
  have hst := hc1.step
  rw [← ho] at hst
  have c1 := Admin.written_sn (x := admExt x) hx (s := ⟨s.flash, some r1⟩) (i := { j.adm with c := k.cmd }) (env := env) hi
    (by rw [hst])
  rw [hst] at c1
  have hsn : (step x s op env).1.flash.sn = some k.cmd.data := c1.2
  refine ⟨c1.1, card_sn_run hx H hc _ _ hsn, ?_⟩
  intro op' env' j' o hn hs' h1 h2 h3 h4
  have hsn' := card_sn_run hx H hc _ [] hsn
  generalize (run x (step x s op env).1 [] H).1 = t at hs' hsn'
  obtain ⟨j2, k2, r2, hc2, rfl, rfl⟩ := saw_call hs'
  have hst2 := hc2.step
  have h := Admin.read_sn (x := admExt x) hx (f := t.flash) (r := r2) (d := k.cmd.data) hsn' c1.1
    (j := { j2.adm with c := k2.cmd }) ⟨h1, h2, h3, h4⟩ hn
  rw [hst2] at h
  exact h

/-- C94: FACTORY RESET changes nothing on the whole card, and is not answered with 9000, unless P1 is 0, the data are
"RESET", the admin PIN is blocked, the command came over USB and the user touched the device in each of five rounds.
Power cuts at any storage operation are included; storage errors are excluded (`C29_read_error_skips_blocked_check`). -/
theorem C94_factory_conditions (s : St) (op : Op) (env : Env) (i : Admin.In) (o : Admin.Out)
    (hs : AdmSaw (s, op, (step x s op env).2) i o) (hi : i.c.ins = 0x50)
    (hf : ∃ p n, s.flash.pin = some p ∧ p.ctr = some n) (he : env.all cutsOnly)
    (hc : ¬ (i.c.p1 = 0 ∧ i.c.data = [0x52, 0x45, 0x53, 0x45, 0x54] ∧ Spec.Admin.Blocked s.flash ∧ i.nfc = false ∧
      Spec.Admin.FiveTouches i.polls)) :
    (step x s op env).1.flash = s.flash ∧ o ≠ .reply (.sw 0x9000) := by
  obtain ⟨j, k, r1, hc1, rfl, rfl⟩ := saw_call hs
  have hst := hc1.step
  obtain ⟨h1, h2⟩ := Admin.C29_only_if (admExt x) s.flash r1 { j.adm with c := k.cmd } env hi hf he hc
  rw [hst] at h1 h2
  refine ⟨h1, fun h => ?_⟩
  rcases h2 with h2 | ⟨_, sw, h2, hsw⟩
  · have := h.symm.trans h2; cases this
  · have := h.symm.trans h2
    cases this
    exact hsw rfl

end Verif.Card
