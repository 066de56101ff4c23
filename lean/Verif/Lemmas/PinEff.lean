import Verif.Lemmas.Pin
import Verif.Base.Zoom
/-
Effects of the PIN operations when called from a command.
-/
set_option linter.unusedSimpArgs false
namespace Verif.Pin
open Cmd

variable {A : Fault → Prop} {ε : Type} {E : ε → Flash → Ram → Prop}
variable {cfg : Cfg} {st b : Bytes} {l : UInt8} {f : Flash} {r : Ram}

/-- A PIN call failed because of the file system: an error, or a PIN file that is missing or incomplete. -/
def Io (A : Fault → Prop) (f : Flash) : Prop :=
  A .fail ∨ ∀ p, f = some p → p.ctr = none ∨ p.dflt = none

/-- The outcomes of `pin_verify`. -/
inductive VerEff (A : Fault → Prop) (cfg : Cfg) (b : Bytes) (l : UInt8) (f : Flash) :
    Rc × Option UInt8 → Flash → Ram → Prop
  | length (h : ¬ lenOk cfg l) : VerEff A cfg b l f (.lengthInvalid, none) f ⟨false⟩
  | io (n : Option UInt8) (h : Io A f) : VerEff A cfg b l f (.ioFail, n) f ⟨false⟩
  | blocked (p : PinFile) (hp : f = some p) (hc : p.ctr = some 0) :
      VerEff A cfg b l f (.authFail, some 0) f ⟨false⟩
  | wrong (p : PinFile) (c : UInt8) (hp : f = some p) (hc : p.ctr = some c) (hz : c ≠ 0) (hl : lenOk cfg l)
      (hm : candidate b l ≠ p.data.take 64) :
      VerEff A cfg b l f (.authFail, some (c - 1)) (some { p with ctr := some (c - 1) }) ⟨false⟩
  | right (p : PinFile) (c d : UInt8) (hp : f = some p) (hc : p.ctr = some c) (hz : c ≠ 0) (hl : lenOk cfg l)
      (hm : candidate b l = p.data.take 64) (hd : p.dflt = some d) :
      VerEff A cfg b l f (.ok, some c) (some { p with ctr := some d }) ⟨true⟩
  | rightIo (p : PinFile) (c : UInt8) (hp : f = some p) (hc : p.ctr = some c) (hz : c ≠ 0) (hl : lenOk cfg l)
      (hm : candidate b l = p.data.take 64) (h : Io A f) :
      VerEff A cfg b l f (.ioFail, some c) f ⟨true⟩

theorem lift_read {α : Type} (look : Flash → Option α) :
    (Cmd.lift (FsM.read look : M (Option α)) : Cmd Flash Ram ε (Option α)) = Cmd.rdF look := rfl
theorem lift_write (upd : Flash → Option Flash) :
    (Cmd.lift (FsM.write upd : M Bool) : Cmd Flash Ram ε Bool) = Cmd.wrF upd := rfl
theorem lift_mod (g : Ram → Ram) :
    (Cmd.lift (FsM.modRam g : M Unit) : Cmd Flash Ram ε Unit) = Cmd.mod g := rfl

theorem verify_wp' (hc : cfg.Ok) (hb : lenOk cfg l → l.toNat ≤ b.length) :
    wp A (Cmd.lift (verify cfg st b l) : Cmd Flash Ram ε _) (fun a => VerEff A cfg b l f a) E
      (fun f' _ => A .cut ∧ f' = f) f r := by
  unfold verify
  simp only [rdCtr, rdData, rdDflt, wrCtr, lift_bind, lift_pure, lift_mod, lift_read, lift_write, lift_ite]
  apply wp_bind; apply wp_mod
  apply wp_ite
  · intro h
    exact wp_pure (.length fun hl => by rw [(lenOk_iff cfg l).2 hl] at h; cases h)
  · intro h
    have hl : lenOk cfg l := (lenOk_iff cfg l).1 (by simpa using h)
    apply wp_bind; apply wp_rdF
    · intro _
      cases hcf : f.bind (·.ctr) with
      | none =>
        refine wp_pure (.io _ (.inr fun p hp => ?_))
        rw [hp] at hcf; exact .inl hcf
      | some c =>
        obtain ⟨p, hp, hpc⟩ := Option.bind_eq_some_iff.mp hcf
        simp only [lift_ite, lift_bind, lift_pure, lift_read, lift_write, lift_mod]
        apply wp_ite
        · intro hz
          have hz : c = 0 := by simpa using hz
          subst hz
          exact wp_pure (.blocked p hp hpc)
        · intro hz
          have hz : c ≠ 0 := by simpa using hz
          apply wp_bind; apply wp_rdF
          · intro _
            rw [hp]
            simp only [Option.map_some, lift_ite, lift_bind, lift_pure, lift_read, lift_write, lift_mod]
            apply wp_ite
            · intro hm
              have hm : candidate b l ≠ p.data.take 64 := fun e => by
                rw [(match_iff cfg hc _ st b l (hb hl)).2 e] at hm; cases hm
              apply wp_bind; apply wp_wrF
              · intro _ f' hf; cases hf
                exact wp_pure (.wrong p c rfl hpc hz hl hm)
              · intro _ h; cases h
              · intro h; exact wp_pure (.io _ (.inl h))
              · exact fun h => ⟨h, rfl⟩
            · intro hm
              have hm : candidate b l = p.data.take 64 :=
                (match_iff cfg hc _ st b l (hb hl)).1 (by simpa using hm)
              apply wp_bind; apply wp_mod
              apply wp_bind; apply wp_rdF
              · intro _
                cases hd : p.dflt with
                | none =>
                  simp only [Option.bind_some, hd, lift_pure]
                  exact wp_pure (.rightIo p c rfl hpc hz hl hm (.inr fun q hq => by cases hq; exact .inr hd))
                | some d =>
                  simp only [Option.bind_some, hd, lift_ite, lift_bind, lift_pure, lift_write]
                  apply wp_bind; apply wp_wrF
                  · intro _ f' hf; cases hf
                    exact wp_pure (.right p c d rfl hpc hz hl hm hd)
                  · intro _ h; cases h
                  · intro h; exact wp_pure (.rightIo p c rfl hpc hz hl hm (.inl h))
                  · exact fun h => ⟨h, rfl⟩
              · intro h; exact wp_pure (.rightIo p c rfl hpc hz hl hm (.inl h))
              · exact fun h => ⟨h, rfl⟩
          · intro h; exact wp_pure (.io _ (.inl h))
          · exact fun h => ⟨h, hp.symm ▸ rfl⟩
    · intro h; exact wp_pure (.io _ (.inl h))
    · exact fun h => ⟨h, rfl⟩

theorem verify_wp (hc : cfg.Ok) (hb : l.toNat ≤ b.length) :
    wp A (Cmd.lift (verify cfg st b l) : Cmd Flash Ram ε _) (fun a => VerEff A cfg b l f a) E
      (fun f' _ => A .cut ∧ f' = f) f r := verify_wp' hc fun _ => hb

/-- The PIN file after its contents were replaced. -/
def withData (f : Flash) (d : Bytes) : PinFile := { (f.getD ⟨[], none, none⟩) with data := d }

/-- The outcomes of `pin_update`. -/
inductive UpdEff (A : Fault → Prop) (cfg : Cfg) (b : Bytes) (l : UInt8) (f : Flash) (r : Ram) :
    Rc → Flash → Ram → Prop
  | length (h : ¬ lenOk cfg l) : UpdEff A cfg b l f r .lengthInvalid f r
  | io (h : Io A f) : UpdEff A cfg b l f r .ioFail f ⟨false⟩
  | half (hl : lenOk cfg l) (h : Io A f) :
      UpdEff A cfg b l f r .ioFail (some (withData f (b.take l.toNat))) ⟨false⟩
  | done (p : PinFile) (d : UInt8) (hp : f = some p) (hd : p.dflt = some d) (hl : lenOk cfg l) :
      UpdEff A cfg b l f r .ok (some { p with data := b.take l.toNat, ctr := some d }) ⟨false⟩

theorem update_wp : wp A (Cmd.lift (update cfg b l) : Cmd Flash Ram ε _) (fun a => UpdEff A cfg b l f r a) E
      (fun f' _ => A .cut ∧ (f' = f ∨ lenOk cfg l ∧ f' = some (withData f (b.take l.toNat)))) f r := by
  unfold update
  simp only [wrFile, rdDflt, wrCtr, lift_bind, lift_pure, lift_mod, lift_read, lift_write, lift_ite]
  apply wp_ite
  · intro h
    exact wp_pure (.length fun hl => by rw [(lenOk_iff cfg l).2 hl] at h; cases h)
  · intro h
    have hl : lenOk cfg l := (lenOk_iff cfg l).1 (by simpa using h)
    apply wp_bind; apply wp_mod
    apply wp_bind; apply wp_wrF
    · intro _ f' hf
      cases hf
      simp only [lift_ite, lift_bind, lift_pure, lift_read, lift_write, lift_mod, Bool.not_true,
        Bool.false_eq_true, if_false]
      apply wp_bind; apply wp_rdF
      · intro _
        cases f with
        | none =>
          simp only [Option.getD_none, Option.bind_some, lift_pure]
          exact wp_pure (.half hl (.inr fun p hp => by cases hp))
        | some p =>
          obtain ⟨pd, pc, pf⟩ := p
          cases pf with
          | none =>
            simp only [Option.getD_some, Option.bind_some, lift_pure]
            exact wp_pure (.half hl (.inr fun q hq => by
              simp only [Option.some.injEq] at hq; subst hq; exact .inr rfl))
          | some d =>
            simp only [Option.getD_some, Option.bind_some, lift_ite, lift_bind, lift_pure, lift_write]
            apply wp_bind; apply wp_wrF
            · intro _ f' hf; cases hf
              exact wp_pure (.done ⟨pd, pc, some d⟩ d rfl rfl hl)
            · intro _ h; cases h
            · intro h; exact wp_pure (.half hl (.inl h))
            · exact fun h => ⟨h, .inr ⟨hl, rfl⟩⟩
      · intro h; exact wp_pure (.half hl (.inl h))
      · exact fun h => ⟨h, .inr ⟨hl, rfl⟩⟩
    · intro _ h; cases h
    · intro h; exact wp_pure (.io (.inl h))
    · exact fun h => ⟨h, .inl rfl⟩

/-- The outcomes of `pin_get_retries`. -/
inductive RetEff (A : Fault → Prop) (f : Flash) : Option Nat → Prop
  | empty (p : PinFile) (hp : f = some p) (hd : p.data = []) : RetEff A f (some 0)
  | io (h : A .fail ∨ ∀ p, f = some p → p.ctr = none) : RetEff A f none
  | some (p : PinFile) (c : UInt8) (hp : f = some p) (hc : p.ctr = some c) (hd : p.data ≠ [] ∨ A .fail) :
      RetEff A f (some c.toNat)

theorem getRetries_wp : wp A (Cmd.lift getRetries : Cmd Flash Ram ε _)
    (fun a f' r' => RetEff A f a ∧ f' = f ∧ r' = r) E (fun f' r' => A .cut ∧ f' = f ∧ r' = r) f r := by
  have key : ∀ hd : (∀ p, f = some p → p.data ≠ [] ∨ A .fail), wp A (Cmd.lift (do
      match ← rdCtr with
      | none => return none
      | some c => return some c.toNat) : Cmd Flash Ram ε _)
      (fun a f' r' => RetEff A f a ∧ f' = f ∧ r' = r) E (fun f' r' => A .cut ∧ f' = f ∧ r' = r) f r := by
    intro hd
    simp only [rdCtr, lift_bind, lift_pure, lift_read, lift_ite]
    apply wp_bind; apply wp_rdF
    · intro _
      cases hc : f.bind (·.ctr) with
      | none =>
        refine wp_pure ⟨.io (.inr fun p hp => ?_), rfl, rfl⟩
        rw [hp] at hc; exact hc
      | some c =>
        obtain ⟨p, hp, hpc⟩ := Option.bind_eq_some_iff.mp hc
        exact wp_pure ⟨.some p c hp hpc (hd p hp), rfl, rfl⟩
    · intro h; exact wp_pure ⟨.io (.inl h), rfl, rfl⟩
    · exact fun h => ⟨h, rfl, rfl⟩
  unfold getRetries
  simp only [rdSize, lift_bind, lift_pure, lift_read, lift_ite]
  apply wp_bind; apply wp_rdF
  · intro _
    apply wp_ite
    · intro h
      have h : f.map (·.data.length) = Option.some 0 := by simpa using h
      obtain ⟨p, hp, hl⟩ := Option.map_eq_some_iff.mp h
      exact wp_pure ⟨.empty p hp (List.length_eq_zero_iff.mp hl), rfl, rfl⟩
    · intro h
      have := key fun p hp => .inl fun he => h (by rw [hp]; simp [he])
      rw [lift_bind] at this
      exact this
  · intro h
    have := key fun p hp => .inr h
    rw [lift_bind] at this
    exact this
  · exact fun h => ⟨h, rfl, rfl⟩

/-- The outcomes of `pin_create`. -/
inductive CreEff (A : Fault → Prop) (b : Bytes) (n : UInt8) (f : Flash) : Rc → Flash → Prop
  | io (f' : Flash) (h : A .fail) (hf : f' = f ∨ ∃ p, f' = some p ∧ p.data = b) : CreEff A b n f .ioFail f'
  | done : CreEff A b n f .ok (some ⟨b, some n, some n⟩)

theorem create_wp {n : UInt8} : wp A (Cmd.lift (create b n) : Cmd Flash Ram ε _)
    (fun a f' r' => CreEff A b n f a f' ∧ r' = r) E
    (fun f' r' => A .cut ∧ r' = r ∧ (f' = f ∨ ∃ p, f' = some p ∧ p.data = b)) f r := by
  unfold create
  simp only [wrFile, wrDflt, wrCtr, lift_bind, lift_pure, lift_write, lift_ite]
  apply wp_bind; apply wp_wrF
  · intro _ f' hf
    cases hf
    simp only [Bool.not_true, Bool.false_eq_true, if_false]
    apply wp_bind; apply wp_wrF
    · intro _ f' hf
      cases hf
      simp only [Bool.not_true, Bool.false_eq_true, if_false]
      apply wp_bind; apply wp_wrF
      · intro _ f' hf
        cases hf
        exact wp_pure ⟨.done, rfl⟩
      · intro _ h; cases h
      · intro h; exact wp_pure ⟨.io _ h (.inr ⟨_, rfl, rfl⟩), rfl⟩
      · exact fun h => ⟨h, rfl, .inr ⟨_, rfl, rfl⟩⟩
    · intro _ h; cases h
    · intro h; exact wp_pure ⟨.io _ h (.inr ⟨_, rfl, rfl⟩), rfl⟩
    · exact fun h => ⟨h, rfl, .inr ⟨_, rfl, rfl⟩⟩
  · intro _ h; cases h
  · intro h; exact wp_pure ⟨.io _ h (.inl rfl), rfl⟩
  · exact fun h => ⟨h, rfl, .inl rfl⟩

theorem rdSize_wp : wp A (Cmd.lift rdSize : Cmd Flash Ram ε _)
    (fun a f' r' => (a = f.map (·.data.length) ∨ A .fail ∧ a = none) ∧ f' = f ∧ r' = r) E
    (fun f' r' => A .cut ∧ f' = f ∧ r' = r) f r := by
  unfold rdSize
  rw [lift_read]
  apply wp_rdF
  · exact fun _ => ⟨.inl rfl, rfl, rfl⟩
  · exact fun h => ⟨.inr ⟨h, rfl⟩, rfl, rfl⟩
  · exact fun h => ⟨h, rfl, rfl⟩

/-- The outcomes of `pin_clear`. -/
inductive ClrEff (A : Fault → Prop) (f : Flash) : Rc → Flash → Prop
  | io (h : Io A f) (f' : Flash) (hf : f' = f ∨ f' = some (withData f [])) : ClrEff A f .ioFail f'
  | done (p : PinFile) (d : UInt8) (hp : f = some p) (hd : p.dflt = some d) :
      ClrEff A f .ok (some { p with data := [], ctr := some d })

theorem clear_wp : wp A (Cmd.lift clear : Cmd Flash Ram ε _) (fun a f' r' => ClrEff A f a f' ∧ r' = r) E
      (fun f' r' => A .cut ∧ r' = r ∧ (f' = f ∨ f' = some (withData f []))) f r := by
  unfold clear
  simp only [wrFile, rdDflt, wrCtr, lift_bind, lift_pure, lift_mod, lift_read, lift_write, lift_ite]
  apply wp_bind; apply wp_wrF
  · intro _ f' hf
    cases hf
    simp only [lift_ite, lift_bind, lift_pure, lift_read, lift_write, lift_mod, Bool.not_true,
      Bool.false_eq_true, if_false]
    apply wp_bind; apply wp_rdF
    · intro _
      cases f with
      | none =>
        simp only [Option.getD_none, Option.bind_some, lift_pure]
        exact wp_pure ⟨.io (.inr fun p hp => by cases hp) _ (.inr rfl), rfl⟩
      | some p =>
        obtain ⟨pd, pc, pf⟩ := p
        cases pf with
        | none =>
          simp only [Option.getD_some, Option.bind_some, lift_pure]
          exact wp_pure ⟨.io (.inr fun q hq => by
            simp only [Option.some.injEq] at hq; subst hq; exact .inr rfl) _ (.inr rfl), rfl⟩
        | some d =>
          simp only [Option.getD_some, Option.bind_some, lift_ite, lift_bind, lift_pure, lift_write]
          apply wp_bind; apply wp_wrF
          · intro _ f' hf; cases hf
            exact wp_pure ⟨.done ⟨pd, pc, some d⟩ d rfl rfl, rfl⟩
          · intro _ h; cases h
          · intro h; exact wp_pure ⟨.io (.inl h) _ (.inr rfl), rfl⟩
          · exact fun h => ⟨h, rfl, .inr rfl⟩
    · intro h; exact wp_pure ⟨.io (.inl h) _ (.inr rfl), rfl⟩
    · exact fun h => ⟨h, rfl, .inr rfl⟩
  · intro _ h; cases h
  · intro h; exact wp_pure ⟨.io (.inl h) _ (.inl rfl), rfl⟩
  · exact fun h => ⟨h, rfl, .inl rfl⟩

end Verif.Pin
