import Verif.Lemmas.CardTrace
/-
The computations of the card as operations of the applets.
-/
namespace Verif.Card
open Apdu (Capdu Rapdu Applet Chain PivState)

variable {x : Ext}

/-! ### OpenPGP -/

theorem pgp_apdu (i : Pgp.In) (r : Pgp.Ram) :
    PgpRuns x (.apdu i) r (answers (Pgp.process x.pgp i)) fun a o => o = .reply a := by
  intro f env
  have e : Pgp.step x.pgp ⟨f, some r⟩ (.apdu i) env = Pgp.exec (Pgp.process x.pgp i) f r env := rfl
  rw [e]
  unfold answers Pgp.exec runCmd
  dsimp only
  generalize (Pgp.process x.pgp i).run ⟨f, r, env⟩ = v
  rcases v with ⟨_ | _ | _, w⟩
  · rfl
  · exact ⟨_, rfl, rfl⟩
  · exact ⟨_, rfl, rfl⟩

theorem pgp_exec_install (b : Bool) (f : Pgp.Flash) (r : Pgp.Ram) (env : Env) :
    Ends (succeeds (Pgp.install b) ⟨f, r, env⟩) (fun w => Pgp.exec (Pgp.installOp b) f r env = (⟨w.flash, none⟩, .cut))
    (fun _ w => ∃ o, Pgp.exec (Pgp.installOp b) f r env = (⟨w.flash, some w.ram⟩, o) ∧ o ≠ .cut) := by
  unfold succeeds Pgp.exec runCmd Pgp.installOp
  rw [Cmd.run_bind_fs, FsM.bind_eq]
  generalize (Pgp.install b).run ⟨f, r, env⟩ = v
  rcases v with ⟨_ | _ | _, w⟩
  · rfl
  · exact ⟨_, rfl, nofun⟩
  · exact ⟨_, rfl, nofun⟩

theorem pgp_factory (r : Pgp.Ram) : PgpRuns x .factory r (succeeds (Pgp.install true)) fun _ o => o ≠ .cut := by
  intro f env
  have e : Pgp.step x.pgp ⟨f, some r⟩ .factory env = Pgp.exec (Pgp.installOp true) f r env := rfl
  rw [e]
  exact pgp_exec_install true f r env

theorem pgp_boot : PgpRuns x .boot Pgp.Ram.init (succeeds (Pgp.install false)) fun _ o => o ≠ .cut := by
  intro f env
  have e : Pgp.step x.pgp ⟨f, some Pgp.Ram.init⟩ .boot env = Pgp.exec (Pgp.installOp false) f Pgp.Ram.init env := rfl
  rw [e]
  exact pgp_exec_install false f Pgp.Ram.init env

/-! ### PIV -/

theorem piv_apdu (i : Piv.In) (r : Piv.Ram) :
    PivRuns x (.apdu i) r (answers (Piv.process x.piv i)) fun a o => o = .reply a := by
  intro f env
  have e : Piv.step x.piv ⟨f, some r⟩ (.apdu i) env = Piv.exec (Piv.process x.piv i) f r env := rfl
  rw [e]
  unfold answers Piv.exec runCmd
  dsimp only
  generalize (Piv.process x.piv i).run ⟨f, r, env⟩ = v
  rcases v with ⟨_ | _ | _, w⟩
  · rfl
  · exact ⟨_, rfl, rfl⟩
  · exact ⟨_, rfl, rfl⟩

theorem piv_exec_install (b : Bool) (rnd : Nat → Byte) (f : Piv.Flash) (r : Piv.Ram) (env : Env) :
    Ends (succeeds (Piv.install b rnd) ⟨f, r, env⟩) (fun w => Piv.exec (Piv.installOp b rnd) f r env = (⟨w.flash, none⟩, .cut))
    (fun _ w => ∃ o, Piv.exec (Piv.installOp b rnd) f r env = (⟨w.flash, some w.ram⟩, o) ∧ o ≠ .cut) := by
  unfold succeeds Piv.exec runCmd Piv.installOp
  rw [Cmd.run_bind_fs, FsM.bind_eq]
  generalize (Piv.install b rnd).run ⟨f, r, env⟩ = v
  rcases v with ⟨_ | _ | _, w⟩
  · rfl
  · exact ⟨_, rfl, nofun⟩
  · exact ⟨_, rfl, nofun⟩

theorem piv_factory (rnd : Nat → Byte) (r : Piv.Ram) :
    PivRuns x (.factory rnd) r (succeeds (Piv.install true rnd)) fun _ o => o ≠ .cut := by
  intro f env
  have e : Piv.step x.piv ⟨f, some r⟩ (.factory rnd) env = Piv.exec (Piv.installOp true rnd) f r env := rfl
  rw [e]
  exact piv_exec_install true rnd f r env

theorem piv_boot (rnd : Nat → Byte) :
    PivRuns x (.boot rnd) Piv.Ram.init (succeeds (Piv.install false rnd)) fun _ o => o ≠ .cut := by
  intro f env
  have e : Piv.step x.piv ⟨f, some Piv.Ram.init⟩ (.boot rnd) env = Piv.exec (Piv.installOp false rnd) f Piv.Ram.init env := rfl
  rw [e]
  exact piv_exec_install false rnd f Piv.Ram.init env

/-! ### NDEF -/

/-- How a command ends. -/
def endsAs (a : Except Reply Reply) (o : Ndef.Out) : Prop :=
  match a with
  | .ok r => o = .reply r
  | .error r => o = .reply r

theorem ndef_exec (m : Ndef.M Reply) (f : Ndef.Flash) (r : Ndef.Ram) (env : Env) :
    Ends (m.run ⟨f, r, env⟩) (fun w => Ndef.exec m f r env = (⟨w.flash, none⟩, .cut))
    (fun a w => ∃ o, Ndef.exec m f r env = (⟨w.flash, some w.ram⟩, o) ∧ endsAs a o) := by
  unfold Ndef.exec runCmd
  generalize m.run ⟨f, r, env⟩ = v
  rcases v with ⟨_ | _ | _, w⟩
  · rfl
  · exact ⟨_, rfl, rfl⟩
  · exact ⟨_, rfl, rfl⟩

theorem ndef_toggle (c : Capdu) (r : Ndef.Ram) : NdefRuns (.toggle c) r (Ndef.toggleReadOnly c).run endsAs := by
  intro f env
  have e : Ndef.step ⟨f, some r⟩ (.toggle c) env = Ndef.exec (Ndef.toggleReadOnly c) f r env := rfl
  rw [e]
  exact ndef_exec _ f r env

theorem ndef_reset (r : Ndef.Ram) : NdefRuns .reset r (Ndef.install true).run endsAs := by
  intro f env
  have e : Ndef.step ⟨f, some r⟩ .reset env = Ndef.exec (Ndef.install true) f r env := rfl
  rw [e]
  exact ndef_exec _ f r env

theorem ndef_boot : NdefRuns .boot Ndef.Ram.init (Ndef.install false).run endsAs := by
  intro f env
  have e : Ndef.step ⟨f, some Ndef.Ram.init⟩ .boot env = Ndef.exec (Ndef.install false) f Ndef.Ram.init env := rfl
  rw [e]
  exact ndef_exec _ f _ env

theorem ndef_apdu (i : Ndef.In) (r : Ndef.Ram) :
    NdefRuns (.apdu i) r (answers (Ndef.process i)) fun a o => o = .reply a := by
  intro f env
  have e : Ndef.step ⟨f, some r⟩ (.apdu i) env = Ndef.exec (Ndef.process i) f r env := rfl
  rw [e]
  unfold answers Ndef.exec runCmd
  dsimp only
  generalize (Ndef.process i).run ⟨f, r, env⟩ = v
  rcases v with ⟨_ | _ | _, w⟩
  · rfl
  · exact ⟨_, rfl, rfl⟩
  · exact ⟨_, rfl, rfl⟩

/-! ### OATH -/

theorem oath_exec (m : Oath.M Reply) (f : Oath.Flash) (r : Oath.Ram) (env : Env) :
    Ends (answers m ⟨f, r, env⟩) (fun w => ∃ q, Oath.exec m ⟨f, r⟩ env = (⟨w.flash, q⟩, .cut))
    (fun a w => ∃ o, Oath.exec m ⟨f, r⟩ env = (⟨w.flash, w.ram⟩, o) ∧ o ≠ .cut ∧ o = .reply a) ∧
    Ends (succeeds m ⟨f, r, env⟩) (fun w => ∃ q, Oath.exec m ⟨f, r⟩ env = (⟨w.flash, q⟩, .cut))
    (fun _ w => ∃ o, Oath.exec m ⟨f, r⟩ env = (⟨w.flash, w.ram⟩, o) ∧ o ≠ .cut ∧ True) := by
  unfold answers succeeds Oath.exec runCmd
  dsimp only
  generalize m.run ⟨f, r, env⟩ = v
  rcases v with ⟨_ | _ | _, w⟩
  · exact ⟨⟨_, rfl⟩, ⟨_, rfl⟩⟩
  · exact ⟨⟨_, rfl, nofun, rfl⟩, ⟨_, rfl, nofun, trivial⟩⟩
  · exact ⟨⟨_, rfl, nofun, rfl⟩, ⟨_, rfl, nofun, trivial⟩⟩

theorem oath_apdu (i : Oath.In) (r : Oath.Ram) :
    OathRuns x (.apdu i) r (answers (Oath.process x.oath i)) fun a o => o = .reply a := by
  intro f env
  have e : Oath.step x.oath ⟨f, r⟩ (.apdu i) env = Oath.exec (Oath.process x.oath i) ⟨f, r⟩ env := rfl
  rw [e]
  exact (oath_exec _ f r env).1

theorem oath_passRead (r : Oath.Ram) : OathRuns x .passRead r (answers Oath.passRead) fun a o => o = .reply a := by
  intro f env
  have e : Oath.step x.oath ⟨f, r⟩ .passRead env = Oath.exec Oath.passRead ⟨f, r⟩ env := rfl
  rw [e]
  exact (oath_exec _ f r env).1

theorem oath_passWrite (c : Capdu) (r : Oath.Ram) :
    OathRuns x (.passWrite c) r (answers (Oath.passWrite c)) fun a o => o = .reply a := by
  intro f env
  have e : Oath.step x.oath ⟨f, r⟩ (.passWrite c) env = Oath.exec (Oath.passWrite c) ⟨f, r⟩ env := rfl
  rw [e]
  exact (oath_exec _ f r env).1

theorem oath_install (b : Bool) (rnd : Bytes) (r : Oath.Ram) :
    OathRuns x (.install b rnd) r (succeeds (Oath.install b rnd)) fun _ _ => True := by
  intro f env
  have e : Oath.step x.oath ⟨f, r⟩ (.install b rnd) env = Oath.exec (Oath.install b rnd) ⟨f, r⟩ env := rfl
  rw [e]
  exact (oath_exec _ f r env).2

theorem oath_passInstall (b : Bool) (r : Oath.Ram) :
    OathRuns x (.passInstall b) r (succeeds (Oath.passInstall b)) fun _ _ => True := by
  intro f env
  have e : Oath.step x.oath ⟨f, r⟩ (.passInstall b) env = Oath.exec (Oath.passInstall b) ⟨f, r⟩ env := rfl
  rw [e]
  exact (oath_exec _ f r env).2

/-- What a touch shows. -/
def touchOut (a : Except Reply (Option Bytes)) : Oath.Out :=
  match a with
  | .ok b => .typed b
  | .error e => .reply e

theorem oath_touch (long : Bool) (r : Oath.Ram) :
    OathRuns x (.touch long) r (Oath.handleTouch x.oath long).run fun a o => o = touchOut a := by
  intro f env
  have e : Oath.step x.oath ⟨f, r⟩ (.touch long) env = Oath.execTouch (Oath.handleTouch x.oath long) ⟨f, r⟩ env := rfl
  rw [e]
  unfold Oath.execTouch
  dsimp only
  generalize (Oath.handleTouch x.oath long).run ⟨f, r, env⟩ = v
  rcases v with ⟨_ | _ | _, w⟩
  · exact ⟨_, rfl⟩
  · exact ⟨_, rfl, nofun, rfl⟩
  · exact ⟨_, rfl, nofun, rfl⟩

/-! ### FIDO -/

theorem ctap_exec {α : Type} (m : Ctap.M α) (g : α → Ctap.Out) (hg : ∀ a, g a ≠ .cut) (f : Ctap.Flash) (r : Ctap.Ram)
    (env : Env) :
    Ends (shows m g ⟨f, r, env⟩) (fun w => ∃ q, Ctap.exec m g ⟨f, r⟩ env = (⟨w.flash, q⟩, .cut))
    (fun a w => ∃ o, Ctap.exec m g ⟨f, r⟩ env = (⟨w.flash, w.ram⟩, o) ∧ o ≠ .cut ∧ o = a) := by
  unfold shows Ctap.exec
  dsimp only
  generalize m.run ⟨f, r, env⟩ = v
  rcases v with ⟨_ | (_ | _) | a, w⟩
  · exact ⟨_, rfl⟩
  · exact ⟨_, rfl, nofun, rfl⟩
  · exact ⟨_, rfl, nofun, rfl⟩
  · exact ⟨_, rfl, hg a, rfl⟩

theorem ctap_cbor (i : Ctap.In) (q : Ctap.Req) (r : Ctap.Ram) :
    CtapRuns x (.cbor i q) r (shows (Ctap.process x.ctap i q) .resp) fun a o => o = a := by
  intro f env
  have e : Ctap.step x.ctap ⟨f, r⟩ (.cbor i q) env = Ctap.exec (Ctap.process x.ctap i q) .resp ⟨f, r⟩ env := rfl
  rw [e]
  exact ctap_exec _ _ (by intro a h; cases h) f r env

theorem ctap_u2f (i : Ctap.In) (q : Ctap.UReq) (r : Ctap.Ram) :
    CtapRuns x (.u2f i q) r (shows (Ctap.u2f x.ctap i q) .u2f) fun a o => o = a := by
  intro f env
  have e : Ctap.step x.ctap ⟨f, r⟩ (.u2f i q) env = Ctap.exec (Ctap.u2f x.ctap i q) .u2f ⟨f, r⟩ env := rfl
  rw [e]
  exact ctap_exec _ _ (by intro a h; cases h) f r env

theorem ctap_adminReset (i : Ctap.In) (r : Ctap.Ram) :
    CtapRuns x (.adminReset i) r (shows (Ctap.install i true) fun _ => .done) fun a o => o = a := by
  intro f env
  have e : Ctap.step x.ctap ⟨f, r⟩ (.adminReset i) env = Ctap.exec (Ctap.install i true) (fun _ => .done) ⟨f, r⟩ env := rfl
  rw [e]
  exact ctap_exec _ _ (by intro a h; cases h) f r env

theorem ctap_powerOn (i : Ctap.In) :
    CtapRuns x (.powerOn i) Ctap.Ram.init (shows (Ctap.install i false) fun _ => .done) fun a o => o = a := by
  intro f env
  have e : Ctap.step x.ctap ⟨f, Ctap.Ram.init⟩ (.powerOn i) env = Ctap.exec (Ctap.install i false) (fun _ => .done) ⟨f, Ctap.Ram.init⟩ env := rfl
  rw [e]
  exact ctap_exec _ _ (by intro a h; cases h) f _ env

theorem ctap_installKey (k : Bytes) (r : Ctap.Ram) :
    CtapRuns x (.installKey k) r (shows (Ctap.installKeyM k) fun _ => .done) fun a o => o = a := by
  intro f env
  have e : Ctap.step x.ctap ⟨f, r⟩ (.installKey k) env = Ctap.exec (Ctap.installKeyM k) (fun _ => .done) ⟨f, r⟩ env := rfl
  rw [e]
  exact ctap_exec _ _ (by intro a h; cases h) f r env

theorem ctap_installCert (k : Bytes) (r : Ctap.Ram) :
    CtapRuns x (.installCert k) r (shows (Ctap.installCertM k) fun _ => .done) fun a o => o = a := by
  intro f env
  have e : Ctap.step x.ctap ⟨f, r⟩ (.installCert k) env = Ctap.exec (Ctap.installCertM k) (fun _ => .done) ⟨f, r⟩ env := rfl
  rw [e]
  exact ctap_exec _ _ (by intro a h; cases h) f r env

theorem ctap_writeSm2 (k : Ctap.Sm2) (r : Ctap.Ram) :
    CtapRuns x (.writeSm2 k) r (shows (Ctap.writeSm2M k) fun _ => .done) fun a o => o = a := by
  intro f env
  have e : Ctap.step x.ctap ⟨f, r⟩ (.writeSm2 k) env = Ctap.exec (Ctap.writeSm2M k) (fun _ => .done) ⟨f, r⟩ env := rfl
  rw [e]
  exact ctap_exec _ _ (by intro a h; cases h) f r env

/-- A further computation on the result. -/
theorem CtapRuns.map {α β : Type} {op : Ctap.Op} {r : Ctap.Ram} {m : FsM Ctap.Flash Ctap.Ram α}
    {G : α → Ctap.Out → Prop} (h : CtapRuns x op r m G) (g : α → β) :
    CtapRuns x op r (m >>= fun a => pure (g a)) fun b o => ∃ a, b = g a ∧ G a o := by
  intro f env
  have := h f env
  rw [FsM.bind_eq]
  generalize m ⟨f, r, env⟩ = v at this
  rcases v with ⟨_ | a, w⟩
  · exact this
  · obtain ⟨o, h1, h2, h3⟩ := this
    exact ⟨o, h1, h2, a, rfl, h3⟩

end Verif.Card
