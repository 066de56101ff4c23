import Verif.Lemmas.CardRuns
import Verif.Spec.Card
/-
What the admin applet and the boot code do to the other applets.
-/
namespace Verif.Card
open Apdu (Capdu Rapdu Applet Chain PivState)
open Spec.Card

variable {x : Ext}

/-- What a command of the admin applet can do to the applets. -/
def AdminEv (x : Ext) (c : Capdu) : Ev → Prop
  | .pgp op _ _ => pgpByAdmin c op
  | .piv op _ _ => pivByAdmin c op
  | .oath op _ _ => oathByAdmin c op
  | .ctap op _ _ => ctapByAdmin x c op
  | .ndef op _ _ => ndefByAdmin c op
  | .adm => True
  | .power _ _ => False

/-- What the boot code does to the applets. -/
def BootEv : Ev → Prop
  | .pgp op _ _ => op = .boot
  | .piv op _ _ => ∃ rnd, op = .boot rnd
  | .oath op _ _ => (∃ rnd, op = .install false rnd) ∨ op = .passInstall false
  | .ctap op _ _ => ∃ i, op = .powerOn i
  | .ndef op _ _ => op = .boot
  | .adm | .power _ _ => True

/-- A command that is a sequence of events. -/
def CTr {ε α : Type} (x : Ext) (P : Ev → Prop) (Pre : Ram → Prop) (m : Cmd Flash Ram ε α) (Post : Ram → Prop) : Prop :=
  TrM x P Pre m.run Post

/-- Nothing is changed but data of the admin applet. -/
theorem TrM.own {α : Type} {P : Ev → Prop} {Pre Post : Ram → Prop} (hP : P .adm) {m : FsM Flash Ram α} (hs : Shifts m)
    (hf : ∀ w, (m w).2.flash.others = w.flash.others ∧ (m w).2.flash.ndef = w.flash.ndef)
    (hr : ∀ w, (m w).2.ram.ndef = w.ram.ndef ∧ (m w).2.ram.others = w.ram.others)
    (hq : ∀ r r' : Ram, r'.ndef = r.ndef → r'.others = r.others → Pre r → Post r') : TrM x P Pre m Post := by
  intro w hw
  refine ⟨hs w, fun _ => hq _ _ (hr w).1 (hr w).2 hw, [.adm], ?_, Trace.one ?_⟩
  · intro e he
    cases List.mem_singleton.mp he
    exact ⟨hP, trivial⟩
  · refine .adm _ _ _ _ (hf w).1 (hf w).2 ?_
    intro q hq
    have : q = (m w).2.ram := by
      cases h : (m w).1 with
      | none => rw [h] at hq; cases hq
      | some a => rw [h] at hq; exact (Option.some.inj hq).symm
    subst this
    have := (hr w).2
    exact ⟨(hr w).1, by rw [this], by rw [this], by rw [this], by rw [this]⟩

/-- The assertion does not depend on the data of the admin applet. -/
def Stable (Q : Ram → Prop) : Prop := ∀ r r' : Ram, r'.ndef = r.ndef → r'.others = r.others → Q r → Q r'

theorem Stable.true : Stable fun _ => True := fun _ _ _ _ _ => trivial

namespace CTr
variable {ε α β : Type} {P : Ev → Prop} {Pre Mid Post : Ram → Prop}

theorem pure {a : α} (h : ∀ r, Pre r → Post r) : CTr x P Pre (Pure.pure a : Cmd Flash Ram ε α) Post :=
  TrM.pure (a := (Except.ok a : Except ε α)) h

theorem throw {e : ε} (h : ∀ r, Pre r → Post r) : CTr x P Pre (MonadExcept.throw e : Cmd Flash Ram ε α) Post :=
  TrM.pure (a := (Except.error e : Except ε α)) h

theorem bind {m : Cmd Flash Ram ε α} {g : α → Cmd Flash Ram ε β} (h : CTr x P Pre m Mid)
    (h' : ∀ a, CTr x P Mid (g a) Post) (hm : ∀ r, Mid r → Post r) : CTr x P Pre (m >>= g) Post := by
  unfold CTr
  rw [Cmd.run_bind_fs]
  refine TrM.bind h fun a => ?_
  cases a with
  | ok a => exact h' a
  | error e => exact TrM.pure hm

theorem ite {c : Prop} [Decidable c] {m n : Cmd Flash Ram ε α} (h : CTr x P Pre m Post) (h' : CTr x P Pre n Post) :
    CTr x P Pre (if c then m else n) Post := by
  by_cases hc : c
  · rw [if_pos hc]; exact h
  · rw [if_neg hc]; exact h'

theorem ite' {c : Prop} [Decidable c] {m n : Cmd Flash Ram ε α} (h : c → CTr x P Pre m Post)
    (h' : ¬ c → CTr x P Pre n Post) : CTr x P Pre (if c then m else n) Post := by
  by_cases hc : c
  · rw [if_pos hc]; exact h hc
  · rw [if_neg hc]; exact h' hc

theorem get (hP : P .adm) (hs : Stable Pre) : CTr x P Pre (Cmd.get : Cmd Flash Ram ε Ram) Pre :=
  TrM.own hP CShifts.get (fun _ => ⟨rfl, rfl⟩) (fun _ => ⟨rfl, rfl⟩) (fun r r' h1 h2 => hs r r' h1 h2)

theorem mod (hP : P .adm) (hs : Stable Pre) {g : Ram → Ram} (h : ∀ r, (g r).ndef = r.ndef ∧ (g r).others = r.others) :
    CTr x P Pre (Cmd.mod g : Cmd Flash Ram ε Unit) Pre :=
  TrM.own hP (CShifts.mod g) (fun _ => ⟨rfl, rfl⟩) (fun w => h w.ram) (fun r r' h1 h2 => hs r r' h1 h2)

theorem rdF (hP : P .adm) (hs : Stable Pre) {look : Flash → Option α} :
    CTr x P Pre (Cmd.rdF look : Cmd Flash Ram ε (Option α)) Pre := by
  have : ∀ w, ((Cmd.rdF look : Cmd Flash Ram ε (Option α)).run w).2.flash = w.flash ∧
      ((Cmd.rdF look : Cmd Flash Ram ε (Option α)).run w).2.ram = w.ram := by
    intro w
    unfold Cmd.rdF
    rw [Cmd.lift_run, FsM.read_eq]
    cases w.env 0 <;> exact ⟨rfl, rfl⟩
  exact TrM.own hP (CShifts.rdF look) (fun w => by rw [(this w).1]; exact ⟨rfl, rfl⟩)
    (fun w => by rw [(this w).2]; exact ⟨rfl, rfl⟩) (fun r r' h1 h2 => hs r r' h1 h2)

theorem wrF (hP : P .adm) (hs : Stable Pre) {upd : Flash → Option Flash}
    (h : ∀ f f', upd f = some f' → f'.others = f.others ∧ f'.ndef = f.ndef) :
    CTr x P Pre (Cmd.wrF upd : Cmd Flash Ram ε Bool) Pre := by
  have : ∀ w, (((Cmd.wrF upd : Cmd Flash Ram ε Bool).run w).2.flash.others = w.flash.others ∧
      ((Cmd.wrF upd : Cmd Flash Ram ε Bool).run w).2.flash.ndef = w.flash.ndef) ∧
      ((Cmd.wrF upd : Cmd Flash Ram ε Bool).run w).2.ram = w.ram := by
    intro w
    unfold Cmd.wrF
    rw [Cmd.lift_run, FsM.write_eq]
    cases w.env 0 with
    | ok =>
      cases hu : upd w.flash with
      | none => exact ⟨⟨rfl, rfl⟩, rfl⟩
      | some f' => exact ⟨h _ _ hu, rfl⟩
    | fail => exact ⟨⟨rfl, rfl⟩, rfl⟩
    | cut => exact ⟨⟨rfl, rfl⟩, rfl⟩
  exact TrM.own hP (CShifts.wrF upd) (fun w => (this w).1)
    (fun w => by rw [(this w).2]; exact ⟨rfl, rfl⟩) (fun r r' h1 h2 => hs r r' h1 h2)

theorem rdOr (hP : P .adm) (hs : Stable Pre) {look : Flash → Option α} {e : ε} :
    CTr x P Pre (Cmd.rdOr look e : Cmd Flash Ram ε α) Pre := by
  unfold Cmd.rdOr
  refine bind (rdF hP hs) (fun o => ?_) fun _ h => h
  cases o with
  | none => exact throw fun _ h => h
  | some a => exact pure fun _ h => h

theorem wrOr (hP : P .adm) (hs : Stable Pre) {upd : Flash → Option Flash} {e : ε}
    (h : ∀ f f', upd f = some f' → f'.others = f.others ∧ f'.ndef = f.ndef) :
    CTr x P Pre (Cmd.wrOr upd e : Cmd Flash Ram ε Unit) Pre := by
  unfold Cmd.wrOr
  refine bind (wrF hP hs h) (fun o => ?_) fun _ h => h
  cases o with
  | false => exact throw fun _ h => h
  | true => exact pure fun _ h => h

theorem onPin (hP : P .adm) (hs : Stable Pre) {m : Pin.M α} (h : Shifts m) :
    CTr x P Pre (Admin.onPin m : Admin.M Fl Rm α) Pre := by
  refine TrM.own hP (CShifts.zoom _ _ (CShifts.lift h)) (fun w => ?_) (fun w => ?_) (fun r r' h1 h2 => hs r r' h1 h2)
  · exact ⟨rfl, rfl⟩
  · exact ⟨rfl, rfl⟩

/-- A call of another applet. -/
theorem onOther {m : Admin.Sub Fl Rm α} (h : TrM x P Pre (FsM.zoom Admin.othF Admin.othR m.val) Post) :
    CTr x P Pre (Admin.onOther m : Admin.M Fl Rm α) Post := by
  have e : (Admin.onOther m : Admin.M Fl Rm α).run =
      (FsM.zoom Admin.othF Admin.othR m.val >>= fun a => Pure.pure (Except.ok a)) := by
    funext w
    rw [FsM.bind_eq]
    show FsM.zoom Admin.othF Admin.othR (Cmd.lift m.val : Cmd Fl Rm Reply α).run w = _
    unfold FsM.zoom
    rw [Cmd.lift_run]
    generalize m.val _ = v
    rcases v with ⟨_ | _, _⟩ <;> rfl
  unfold CTr
  rw [e]
  exact TrM.bind h fun a => TrM.pure fun _ h => h

theorem sub {m : Admin.Sub Fl Rm Bool} (h : TrM x P Pre (FsM.zoom Admin.othF Admin.othR m.val) Post) :
    CTr x P Pre (Admin.sub m) Post := by
  unfold Admin.sub
  refine bind (onOther h) (fun b => ?_) fun _ h => h
  exact ite (throw fun _ h => h) (pure fun _ h => h)

end CTr

/-! ### Shifts -/

theorem pinGetRetries_shifts : Shifts Pin.getRetries := by
  unfold Pin.getRetries Pin.rdSize Pin.rdCtr
  shifts
theorem pinVerify_shifts (cfg : Pin.Cfg) (a b : Bytes) (n : UInt8) : Shifts (Pin.verify cfg a b n) := by
  unfold Pin.verify Pin.rdCtr Pin.rdData Pin.rdDflt Pin.wrCtr
  shifts
theorem pinUpdate_shifts (cfg : Pin.Cfg) (b : Bytes) (n : UInt8) : Shifts (Pin.update cfg b n) := by
  unfold Pin.update Pin.wrFile Pin.rdDflt Pin.wrCtr
  shifts
theorem pinCreate_shifts (b : Bytes) (n : UInt8) : Shifts (Pin.create b n) := by
  unfold Pin.create Pin.wrFile Pin.wrDflt Pin.wrCtr
  shifts
theorem ndefInstall_shifts (b : Bool) : CShifts (Ndef.install b) := by
  unfold Ndef.install Ndef.createInit
  shifts
theorem ndefToggle_shifts (c : Capdu) : CShifts (Ndef.toggleReadOnly c) := by
  unfold Ndef.toggleReadOnly
  shifts

/-! ### Calls of the admin applet -/

theorem tr_pgp (P : Ev → Prop) (hP : ∀ env o, P (.pgp .factory env o)) :
    TrM x P (fun _ => True) (FsM.zoom Admin.othF Admin.othR (pgpSub true).val) fun _ => True :=
  TrM.onPgp (succeeds_shifts (pgpInstall_shifts true)) (fun _ _ => pgp_factory _) hP fun _ _ _ => trivial

/-- A computation that depends on RAM. -/
theorem TrM.dep {α β : Type} {P : Ev → Prop} {Pre Post : Ram → Prop} {m : β → FsM Flash Ram α} {g : Ram → β}
    (h : ∀ b, TrM x P (fun r => Pre r ∧ g r = b) (m b) Post) : TrM x P Pre (fun w => m (g w.ram) w) Post :=
  fun w hw => h (g w.ram) w ⟨hw, rfl⟩

theorem tr_piv (P : Ev → Prop) (hP : ∀ rnd env o, P (.piv (.factory rnd) env o)) :
    TrM x P (fun _ => True) (FsM.zoom Admin.othF Admin.othR (pivSub true).val) fun _ => True :=
  TrM.dep (m := fun b => onPiv (succeeds (Piv.install true b))) (g := fun r => r.others.rnd.piv) fun b =>
    TrM.onPiv (succeeds_shifts (pivInstall_shifts true b)) (fun _ _ => piv_factory b _) (hP b) fun _ _ _ => trivial

theorem tr_oath (P : Ev → Prop) (hP : ∀ rnd env o, P (.oath (.install true rnd) env o)) :
    TrM x P (fun _ => True) (FsM.zoom Admin.othF Admin.othR (oathSub true).val) fun _ => True :=
  TrM.dep (m := fun b => onOath (succeeds (Oath.install true b))) (g := fun r => r.others.rnd.oath) fun b =>
    TrM.onOath (succeeds_shifts (oathInstall_shifts true b)) (fun _ _ => oath_install true b _) (hP b)
      fun _ _ _ => trivial

theorem tr_ctap (P : Ev → Prop) (hP : ∀ i env o, P (.ctap (.adminReset i) env o)) :
    TrM x P (fun _ => True) (FsM.zoom Admin.othF Admin.othR (ctapSub true).val) fun _ => True :=
  TrM.dep (m := fun b => onCtap (shows (Ctap.install b true) (fun _ => .done) >>= fun _ => pure true))
    (g := fun r => r.others.rnd.ctap) fun b =>
    TrM.onCtap (Shifts.map (shows_shifts (ctapInstall_shifts b true)) _)
      (fun _ _ => (ctap_adminReset b _).map fun _ => true) (hP b) fun _ _ _ => trivial

theorem tr_pass (P : Ev → Prop) (hP : ∀ env o, P (.oath (.passInstall true) env o)) :
    TrM x P (fun _ => True) (FsM.zoom Admin.othF Admin.othR (passSub true).val) fun _ => True :=
  TrM.onOath (succeeds_shifts (passInstall_shifts true)) (fun _ _ => oath_passInstall true _) hP fun _ _ _ => trivial

theorem tr_ndef {Pre Post : Ram → Prop} (P : Ev → Prop) {op : Ndef.Op} {m : Ndef.M Reply} (hs : CShifts m)
    (h : ∀ r, Pre r → NdefRuns op r.ndef m.run endsAs) (hP : ∀ env o, P (.ndef op env o))
    (hq : ∀ (r : Ram) p, Pre r → Post { r with ndef := p }) :
    CTr x P Pre (Admin.onNdef m : Admin.M Fl Rm Reply) Post :=
  TrM.onNdef hs h hP hq

/-- Another applet is not touched. -/
theorem tr_none {α : Type} {P : Ev → Prop} (hP : P .adm) {m : FsM Ctap.Flash Ctap.Ram α} (hs : Shifts m)
    (h : ∀ w, (m w).2.flash = w.flash ∧ (m w).2.ram = w.ram) :
    TrM x P (fun _ => True) (FsM.zoom Admin.othF Admin.othR (FsM.zoom ctapF ctapR m)) fun _ => True := by
  have e : ∀ w, (FsM.zoom Admin.othF Admin.othR (FsM.zoom ctapF ctapR m) w).2.flash = w.flash ∧
      (FsM.zoom Admin.othF Admin.othR (FsM.zoom ctapF ctapR m) w).2.ram = w.ram := by
    intro w
    have h1 := h ⟨w.flash.others.ctap, w.ram.others.ctap, w.env⟩
    unfold FsM.zoom Admin.othF Admin.othR ctapF ctapR
    dsimp only
    generalize m ⟨w.flash.others.ctap, w.ram.others.ctap, w.env⟩ = v at h1
    obtain ⟨a, v⟩ := v
    dsimp only at h1 ⊢
    rw [h1.1, h1.2]
    exact ⟨rfl, rfl⟩
  exact TrM.own hP (Shifts.zoom _ _ (Shifts.zoom _ _ hs)) (fun w => by rw [(e w).1]; exact ⟨rfl, rfl⟩)
    (fun w => by rw [(e w).2]; exact ⟨rfl, rfl⟩) fun _ _ _ _ _ => trivial

theorem TrM.ite {α : Type} {P : Ev → Prop} {Pre Post : Ram → Prop} {c : Prop} [Decidable c] {m n : FsM Fl Rm α}
    (h : c → TrM x P Pre (FsM.zoom Admin.othF Admin.othR m) Post)
    (h' : ¬ c → TrM x P Pre (FsM.zoom Admin.othF Admin.othR n) Post) :
    TrM x P Pre (FsM.zoom Admin.othF Admin.othR (if c then m else n)) Post := by
  by_cases hc : c
  · rw [if_pos hc]; exact h hc
  · rw [if_neg hc]; exact h' hc

theorem tr_fwd (c : Capdu) :
    TrM x (AdminEv x c) (fun _ => True) (FsM.zoom Admin.othF Admin.othR (fwdM x c)) fun _ => True := by
  unfold fwdM
  refine TrM.ite (fun h => ?_) fun _ => TrM.ite (fun h => ?_) fun _ => TrM.ite (fun _ => ?_) fun _ =>
    TrM.ite (fun h => ?_) fun _ => TrM.ite (fun h => ?_) fun _ => TrM.ite (fun h => ?_) fun _ => ?_
  · unfold fwdKey
    by_cases hc : (c.lc != 32) = true
    · rw [if_pos hc]
      exact tr_none trivial (Shifts.pure _) fun _ => ⟨rfl, rfl⟩
    · rw [if_neg hc]
      have hl : c.lc = 32 := by simpa using hc
      exact TrM.onCtap (Shifts.map (shows_shifts (installKey_shifts _)) _)
        (fun _ _ => (ctap_installKey c.data _).map _) (fun _ _ => .inr (.inl ⟨rfl, by simpa using h, hl⟩))
        fun _ _ _ => trivial
  · unfold fwdCert
    by_cases hc : c.lc > 1152
    · rw [if_pos hc]
      exact tr_none trivial (Shifts.pure _) fun _ => ⟨rfl, rfl⟩
    · rw [if_neg hc]
      exact TrM.onCtap (Shifts.map (shows_shifts (installCert_shifts _)) _)
        (fun _ _ => (ctap_installCert c.data _).map _)
        (fun _ _ => .inr (.inr (.inl ⟨rfl, by simpa using h, by omega⟩))) fun _ _ _ => trivial
  · refine tr_none trivial (Shifts.bind (Shifts.read _) fun o => by cases o <;> exact Shifts.pure _) fun w => ?_
    unfold fwdReadSm2
    rw [FsM.bind_eq, FsM.read_eq]
    cases w.env 0 with
    | ok => cases Ctap.rdCert (·.sm2) w.flash <;> exact ⟨rfl, rfl⟩
    | fail => exact ⟨rfl, rfl⟩
    | cut => exact ⟨rfl, rfl⟩
  · unfold fwdWriteSm2
    by_cases hc : (c.lc != 12) = true
    · rw [if_pos hc]
      exact tr_none trivial (Shifts.pure _) fun _ => ⟨rfl, rfl⟩
    · rw [if_neg hc]
      have hl : c.lc = 12 := by simpa using hc
      exact TrM.onCtap (Shifts.map (shows_shifts (writeSm2_shifts _)) _)
        (fun _ _ => (ctap_writeSm2 (x.sm2 c.data) _).map _)
        (fun _ _ => .inr (.inr (.inr ⟨rfl, by simpa using h, hl⟩))) fun _ _ _ => trivial
  · exact TrM.onOath (answers_shifts passRead_shifts) (fun _ _ => oath_passRead _)
      (fun _ _ => .inr (.inr (.inl ⟨rfl, by simpa using h⟩))) fun _ _ _ => trivial
  · exact TrM.onOath (answers_shifts (passWrite_shifts c)) (fun _ _ => oath_passWrite c _)
      (fun _ _ => .inr (.inr (.inr ⟨rfl, by simpa using h⟩))) fun _ _ _ => trivial
  · exact TrM.own trivial (Shifts.zoom _ _ (Shifts.pure _)) (fun _ => ⟨rfl, rfl⟩) (fun _ => ⟨rfl, rfl⟩)
      fun _ _ _ _ _ => trivial

/-- Close a `CTr` goal by the structure of the command. -/
macro "ctr" : tactic => `(tactic| repeat' (with_reducible first
  | exact CTr.pure fun _ h => h | exact CTr.throw fun _ h => h
  | (apply CTr.get trivial Stable.true) | exact CTr.rdF trivial Stable.true | exact CTr.rdOr trivial Stable.true
  | (apply CTr.mod trivial Stable.true; intro r; exact ⟨rfl, rfl⟩)
  | (apply CTr.wrOr trivial Stable.true; intro f f' h; cases h; exact ⟨rfl, rfl⟩)
  | exact CTr.onPin trivial Stable.true pinGetRetries_shifts
  | exact CTr.onPin trivial Stable.true (pinVerify_shifts _ _ _ _)
  | exact CTr.onPin trivial Stable.true (pinUpdate_shifts _ _ _)
  | exact CTr.onPin trivial Stable.true (pinCreate_shifts _ _)
  | (refine CTr.bind (Mid := fun _ => True) ?_ ?_ fun _ h => h) | apply CTr.ite | intro _ | assumption | split))

theorem tr_install {k : Capdu} (b : Bool) : CTr x (AdminEv x k) (fun _ => True) (Admin.install b) fun _ => True := by
  unfold Admin.install
  ctr

theorem tr_verify {k : Capdu} (y : Admin.Ext Fl Rm) (i : Admin.In) : CTr x (AdminEv x k) (fun _ => True) (Admin.verify y i) fun _ => True := by
  unfold Admin.verify
  ctr
theorem tr_changePin {k : Capdu} (y : Admin.Ext Fl Rm) (c : Capdu) :
    CTr x (AdminEv x k) (fun _ => True) (Admin.changePin y c) fun _ => True := by
  unfold Admin.changePin
  ctr
theorem tr_writeSn {k : Capdu} (c : Capdu) : CTr x (AdminEv x k) (fun _ => True) (Admin.writeSn c) fun _ => True := by
  unfold Admin.writeSn
  ctr
theorem tr_readSn {k : Capdu} (c : Capdu) : CTr x (AdminEv x k) (fun _ => True) (Admin.readSn c) fun _ => True := by
  unfold Admin.readSn Admin.fillSn
  ctr
theorem tr_config {k : Capdu} (c : Capdu) : CTr x (AdminEv x k) (fun _ => True) (Admin.config c) fun _ => True := by
  unfold Admin.config
  ctr
theorem tr_readConfig {k : Capdu} (c : Capdu) : CTr x (AdminEv x k) (fun _ => True) (Admin.readConfig c) fun _ => True := by
  unfold Admin.readConfig
  ctr
theorem tr_flashUsage {k : Capdu} (i : Admin.In) : CTr x (AdminEv x k) (fun _ => True) (Admin.flashUsage i) fun _ => True := by
  unfold Admin.flashUsage
  ctr

theorem tr_reset {k : Capdu} {m : Admin.Sub Fl Rm Bool}
    (h : TrM x (AdminEv x k) (fun _ => True) (FsM.zoom Admin.othF Admin.othR m.val) fun _ => True) :
    CTr x (AdminEv x k) (fun _ => True) (Admin.resetOther m) fun _ => True := by
  unfold Admin.resetOther
  exact CTr.bind (CTr.sub h) (fun _ => CTr.pure fun _ h => h) fun _ h => h

theorem tr_ndefReset {k : Capdu} (h : k.ins = 0x07 ∨ k.ins = 0x50) :
    CTr x (AdminEv x k) (fun _ => True) (Admin.onNdef (Ndef.install true) : Admin.M Fl Rm Reply) fun _ => True :=
  tr_ndef _ (ndefInstall_shifts true) (fun _ _ => ndef_reset _) (fun _ _ => .inl ⟨rfl, h⟩) fun _ _ _ => trivial

theorem tr_ndefToggle (c : Capdu) (h : c.ins = 0x08) :
    CTr x (AdminEv x c) (fun _ => True) (Admin.onNdef (Ndef.toggleReadOnly c) : Admin.M Fl Rm Reply) fun _ => True :=
  tr_ndef _ (ndefToggle_shifts c) (fun _ _ => ndef_toggle c _) (fun _ _ => .inr ⟨rfl, h⟩) fun _ _ _ => trivial

set_option maxHeartbeats 2000000 in
theorem tr_factory' (y : Admin.Ext Fl Rm) (i : Admin.In) {P : Ev → Prop} (h0 : P .adm)
    (g1 : CTr x P (fun _ => True) (Admin.sub (y.pgp true)) fun _ => True)
    (g2 : CTr x P (fun _ => True) (Admin.sub (y.piv true)) fun _ => True)
    (g3 : CTr x P (fun _ => True) (Admin.sub (y.oath true)) fun _ => True)
    (g4 : CTr x P (fun _ => True) (Admin.sub (y.ctap true)) fun _ => True)
    (g5 : CTr x P (fun _ => True) (Admin.sub (y.pass true)) fun _ => True)
    (g6 : CTr x P (fun _ => True) (Admin.onNdef (Ndef.install true) : Admin.M Fl Rm Reply) fun _ => True)
    (g7 : CTr x P (fun _ => True) (Admin.install true) fun _ => True) :
    CTr x P (fun _ => True) (Admin.factoryReset y i) fun _ => True := by
  have g0 : CTr x P (fun _ => True) (Admin.onPin Pin.getRetries : Admin.M Fl Rm _) fun _ => True :=
    CTr.onPin h0 Stable.true pinGetRetries_shifts
  unfold Admin.factoryReset
  ctr

theorem tr_factory (i : Admin.In) (h : i.c.ins = 0x50) :
    CTr x (AdminEv x i.c) (fun _ => True) (Admin.factoryReset (admExt x) i) fun _ => True :=
  tr_factory' _ i trivial (CTr.sub (tr_pgp _ fun _ _ => ⟨rfl, .inr h⟩))
    (CTr.sub (tr_piv _ fun _ _ _ => ⟨⟨_, rfl⟩, .inr h⟩))
    (CTr.sub (tr_oath _ fun _ _ _ => .inl ⟨⟨_, rfl⟩, .inr h⟩))
    (CTr.sub (tr_ctap _ fun _ _ _ => .inl ⟨⟨_, rfl⟩, .inr h⟩))
    (CTr.sub (tr_pass _ fun _ _ => .inr (.inl ⟨rfl, .inr h⟩))) (tr_ndefReset (.inr h)) (tr_install true)

theorem tr_gated (i : Admin.In) :
    CTr x (AdminEv x i.c) (fun _ => True) (Admin.gated (admExt x) i) fun _ => True := by
  unfold Admin.gated
  dsimp only
  refine CTr.ite (CTr.onOther (tr_fwd i.c)) <|
    CTr.ite' (fun h => tr_reset (tr_pgp _ fun _ _ => ⟨rfl, .inl (by simpa using h)⟩)) fun _ =>
    CTr.ite' (fun h => tr_reset (tr_piv _ fun _ _ _ => ⟨⟨_, rfl⟩, .inl (by simpa using h)⟩)) fun _ =>
    CTr.ite' (fun h => tr_reset (tr_oath _ fun _ _ _ => .inl ⟨⟨_, rfl⟩, .inl (by simpa using h)⟩)) fun _ =>
    CTr.ite' (fun h => tr_ndefReset (.inl (by simpa using h))) fun _ =>
    CTr.ite' (fun h => tr_ndefToggle i.c (by simpa using h)) fun _ =>
    CTr.ite' (fun h => tr_reset (tr_pass _ fun _ _ => .inr (.inl ⟨rfl, .inl (by simpa using h)⟩))) fun _ =>
    CTr.ite' (fun h => tr_reset (tr_ctap _ fun _ _ _ => .inl ⟨⟨_, rfl⟩, .inl (by simpa using h)⟩)) fun _ =>
    CTr.ite (tr_changePin _ _) <|
    CTr.ite (tr_writeSn _) <| CTr.ite (tr_config _) <| CTr.ite (tr_flashUsage _) <| CTr.ite (tr_readConfig _) <|
    CTr.ite (CTr.pure fun _ h => h) (CTr.throw fun _ h => h)

/-- A command of the admin applet. -/
theorem tr_admin (i : Admin.In) :
    CTr x (AdminEv x i.c) (fun _ => True) (Admin.process (admExt x) i) fun _ => True := by
  have h1 := tr_factory (x := x) i
  have h2 := tr_verify (x := x) (k := i.c) (admExt x) i
  have h3 := tr_gated (x := x) i
  have h4 := tr_readSn (x := x) (k := i.c) i.c
  unfold Admin.process
  refine CTr.ite (by ctr) <| CTr.ite (by ctr) <| CTr.ite (by ctr) <| CTr.ite (by ctr) <|
    CTr.ite' (fun h => h1 (by simpa using h)) fun _ => by ctr

end Verif.Card
